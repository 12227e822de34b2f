import Verif.Props.InputSections
import Verif.Spec.InputText

/-
C117: exactly the described input files are accepted.
-/

namespace Bdld
open Spec

section
variable {F : Type}

/-- A section is parsed if every option is. -/
theorem parseLoop_iff (c : Conv F) (s : Section) : ∀ (options : List (InputOption F)) (d : Dict (OptVal F)),
    (∃ d', parseLoop c s options d = .ok d') ↔ ∀ o ∈ options, ∃ v, o.parse c s = .ok v
  | [], d => by simp [parseLoop]
  | o :: os, d => by
    rw [parseLoop, List.forall_mem_cons]
    cases o.parse c s with
    | error e => simp
    | ok v =>
      dsimp only
      rw [parseLoop_iff c s os]
      simp

theorem parseSection_iff (c : Conv F) (s : Section) (options : List (InputOption F)) :
    (∃ d, parseSection c s options = .ok d) ↔ ∀ o ∈ options, ∃ v, o.parse c s = .ok v := parseLoop_iff c s options []

/-- The text denotes a value that meets the condition. -/
def TextOk (c : Conv F) (o : InputOption F) (raw : String) : Prop :=
  ∃ v, Denotes c o.keytype raw v ∧ ∀ f, o.condition = some f → f v = .ok true

theorem parse_iff (c : Conv F) (s : Section) (o : InputOption F) :
    (∃ v, o.parse c s = .ok v) ↔ if o.compulsory then Given s o.key (TextOk c o) else Perhaps s o.key (TextOk c o) := by
  have key : ∀ r, s.entries.get? o.key = some r → ((∃ v, o.parse c s = .ok v) ↔ Given s o.key (TextOk c o)) := by
    intro r hr
    unfold InputOption.parse Given TextOk
    rw [hr]
    dsimp only
    constructor
    · rintro ⟨v, hv⟩
      cases hcv : o.convert c s.name r with
      | error e => rw [hcv] at hv; cases hv
      | ok w =>
        obtain ⟨raw, rfl, hd⟩ := convert_ok c o s.name r w hcv
        refine ⟨raw, rfl, w, hd, fun f hf => ?_⟩
        rw [hcv] at hv
        simp only [hf] at hv
        cases hfw : f w with
        | error e => rw [hfw] at hv; cases hv
        | ok b =>
          cases b
          · rw [hfw] at hv; cases hv
          · rfl
    · rintro ⟨raw, h1, v, hd, hf⟩
      cases h1
      rw [convert_denotes c o s.name raw v hd]
      dsimp only
      cases hc : o.condition with
      | none => exact ⟨v, rfl⟩
      | some f => exact ⟨v, by dsimp only; rw [hf f hc]⟩
  cases hg : s.entries.get? o.key with
  | none =>
    unfold InputOption.parse
    rw [hg]
    cases hc : o.compulsory
    · simp [Perhaps, hg]
    · simp [Given, hg]
  | some r =>
    rw [key r hg]
    cases o.compulsory
    · simp [Perhaps, hg]
    · simp

theorem given_congr {s : Section} {key : String} {P Q : String → Prop} (h : ∀ raw, P raw ↔ Q raw) : Given s key P ↔ Given s key Q := by
  unfold Given
  simp only [h]

theorem perhaps_congr {s : Section} {key : String} {P Q : String → Prop} (h : ∀ raw, P raw ↔ Q raw) :
    Perhaps s key P ↔ Perhaps s key Q := by
  unfold Perhaps
  rw [given_congr h]

theorem given_parse (c : Conv F) (s : Section) (o : InputOption F) (hc : o.compulsory = true) {P : String → Prop}
    (h : ∀ raw, TextOk c o raw ↔ P raw) : (∃ v, o.parse c s = .ok v) ↔ Given s o.key P := by
  rw [parse_iff, if_pos hc, given_congr h]

theorem perhaps_parse (c : Conv F) (s : Section) (o : InputOption F) (hc : o.compulsory = false) {P : String → Prop}
    (h : ∀ raw, TextOk c o raw ↔ P raw) : (∃ v, o.parse c s = .ok v) ↔ Perhaps s o.key P := by
  rw [parse_iff, if_neg (by simp [hc]), perhaps_congr h]

/-! ### Texts of the types -/

variable (c : Conv F)

theorem ok_str (key : String) (b : Bool) (d : OptVal F) (raw : String) : TextOk c (opt key .str b none d) raw ↔ anyText raw := by
  simp [TextOk, opt, Denotes, DenotesElem, anyText]

theorem ok_oneOf (key : String) (b : Bool) (l : List String) (d : OptVal F) (raw : String) :
    TextOk c (opt key .str b (some (oneOf l)) d) raw ↔ raw ∈ l := by
  simp [TextOk, opt, Denotes, DenotesElem, oneOf]

theorem ok_bool (key : String) (b : Bool) (d : OptVal F) (raw : String) : TextOk c (opt key .bool b none d) raw ↔ boolText raw := by
  constructor
  · rintro ⟨v, ⟨b, h, rfl⟩, _⟩
    exact ⟨b, h⟩
  · rintro ⟨b, h⟩
    exact ⟨_, ⟨b, h, rfl⟩, by simp [opt]⟩

theorem ok_int (key : String) (b : Bool) (d : OptVal F) (raw : String) :
    TextOk c (opt key .int b none d) raw ↔ intText c anything raw := by
  simp [TextOk, opt, Denotes, DenotesElem, intText, anything]

theorem ok_int_pos [Zero F] [LT F] [DecidableLT F] (key : String) (b : Bool) (d : OptVal F) (raw : String) :
    TextOk c (opt key .int b (some positive) d) raw ↔ intText c (0 < ·) raw := by
  simp [TextOk, opt, Denotes, DenotesElem, intText, positive, gtZero, cmpNum]

theorem ok_float (key : String) (b : Bool) (d : OptVal F) (raw : String) :
    TextOk c (opt key .float b none d) raw ↔ floatText c anything raw := by
  simp [TextOk, opt, Denotes, DenotesElem, floatText, anything]

theorem ok_float_pos [Zero F] [LT F] [DecidableLT F] (key : String) (b : Bool) (d : OptVal F) (raw : String) :
    TextOk c (opt key .float b (some positive) d) raw ↔ floatText c (0 < ·) raw := by
  simp [TextOk, opt, Denotes, DenotesElem, floatText, positive, gtZero, cmpNum]

theorem ok_float_nonneg [Zero F] [LE F] [DecidableLE F] (key : String) (b : Bool) (d : OptVal F) (raw : String) :
    TextOk c (opt key .float b (some positiveOrZero) d) raw ↔ floatText c (0 ≤ ·) raw := by
  simp [TextOk, opt, Denotes, DenotesElem, floatText, positiveOrZero, cmpNum]

theorem ok_dim (key : String) (b : Bool) (d : OptVal F) (raw : String) :
    TextOk c (opt key .int b (some atMost3dim) d) raw ↔ intText c (0 < ·) raw := by
  have : ∀ x : Int, atMost3dimInt x = true ↔ 0 < x := by
    intro x
    have h0 : pyAnd 0 x = 0 := by
      cases x <;> simp [pyAnd]
    rw [atMost3dimInt, h0]
    simp
  simp [TextOk, opt, Denotes, DenotesElem, intText, atMost3dim, this]

/-- A list of denoted values with a condition on each. -/
theorem list_text {t : BaseType} {raw : String} {P : BaseVal F → Prop} {Q : String → Prop}
    (h : ∀ p, (∃ v, DenotesElem c t p v ∧ P v) ↔ Q p) :
    (∃ l, Denotes c (.list t) raw (.list l) ∧ ∀ v ∈ l, P v) ↔ ∃ parts, CommaSeparated raw parts ∧ ∀ p ∈ parts, Q p := by
  constructor
  · rintro ⟨l, ⟨parts, l', h1, h2, h3⟩, hP⟩
    cases h3
    refine ⟨parts, h1, fun p hp => ?_⟩
    obtain ⟨i, hi, rfl⟩ := List.getElem_of_mem hp
    have hi' : i < l.length := h2.length_eq ▸ hi
    exact (h _).1 ⟨l[i], (List.forall₂_iff_get.1 h2).2 i hi hi', hP _ (List.getElem_mem hi')⟩
  · rintro ⟨parts, h1, h2⟩
    have : ∃ l, List.Forall₂ (DenotesElem c t) parts l ∧ ∀ v ∈ l, P v := by
      clear h1
      induction parts with
      | nil => exact ⟨[], .nil, by simp⟩
      | cons p parts ih =>
        obtain ⟨l, h3, h4⟩ := ih fun q hq => h2 q (List.mem_cons_of_mem _ hq)
        obtain ⟨v, h5, h6⟩ := (h p).2 (h2 p List.mem_cons_self)
        exact ⟨v :: l, .cons h5 h3, by simpa using ⟨h6, h4⟩⟩
    obtain ⟨l, h3, h4⟩ := this
    exact ⟨l, ⟨parts, l, h1, h3, rfl⟩, h4⟩

theorem list_denotes {t : BaseType} {raw : String} {v : OptVal F} (h : Denotes c (.list t) raw v) : ∃ l, v = .list l := by
  obtain ⟨_, l, _, _, rfl⟩ := h
  exact ⟨l, rfl⟩

theorem ok_floats (key : String) (b : Bool) (raw : String) :
    TextOk c (optList key .float b) raw ↔ floatsText c anything raw := by
  unfold floatsText
  rw [← list_text c (t := .float) (P := fun _ => True) (Q := floatText c anything) (by
    intro p
    simp [DenotesElem, floatText, anything])]
  constructor
  · rintro ⟨v, h1, _⟩
    obtain ⟨l, rfl⟩ := list_denotes c h1
    exact ⟨l, h1, by simp⟩
  · rintro ⟨l, h1, _⟩
    exact ⟨_, h1, by simp [optList]⟩

theorem ok_floats_pos [Zero F] [LT F] [DecidableLT F] (key : String) (b : Bool) (raw : String) :
    TextOk c (optList key .float b (some allPositive)) raw ↔ floatsText c (0 < ·) raw := by
  unfold floatsText
  rw [← list_text c (t := .float) (P := Positive) (Q := floatText c (0 < ·)) (by
    intro p
    simp [DenotesElem, floatText, Positive])]
  constructor
  · rintro ⟨v, h1, h2⟩
    obtain ⟨l, rfl⟩ := list_denotes c h1
    exact ⟨l, h1, (allPositive_spec l).1 (h2 _ rfl)⟩
  · rintro ⟨l, h1, h2⟩
    refine ⟨_, h1, fun f hf => ?_⟩
    cases hf
    exact (allPositive_spec l).2 h2

theorem ok_ints_pos [Zero F] [LT F] [DecidableLT F] (key : String) (b : Bool) (raw : String) :
    TextOk c (optList key .int b (some allPositive)) raw ↔ intsText c (0 < ·) raw := by
  unfold intsText
  rw [← list_text c (t := .int) (P := Positive) (Q := intText c (0 < ·)) (by
    intro p
    simp [DenotesElem, intText, Positive])]
  constructor
  · rintro ⟨v, h1, h2⟩
    obtain ⟨l, rfl⟩ := list_denotes c h1
    exact ⟨l, h1, (allPositive_spec l).1 (h2 _ rfl)⟩
  · rintro ⟨l, h1, h2⟩
    refine ⟨_, h1, fun f hf => ?_⟩
    cases hf
    exact (allPositive_spec l).2 h2

/-! ### Options -/

theorem given_str (s : Section) (key : String) (d : OptVal F) :
    (∃ v, (opt key .str true none d).parse c s = .ok v) ↔ Given s key anyText :=
  given_parse c s _ rfl (ok_str c key true d)

theorem perhaps_str (s : Section) (key : String) (d : OptVal F) :
    (∃ v, (opt key .str false none d).parse c s = .ok v) ↔ Perhaps s key anyText :=
  perhaps_parse c s _ rfl (ok_str c key false d)

theorem given_oneOf (s : Section) (key : String) (l : List String) (d : OptVal F) :
    (∃ v, (opt key .str true (some (oneOf l)) d).parse c s = .ok v) ↔ Given s key (· ∈ l) :=
  given_parse c s _ rfl (ok_oneOf c key true l d)

theorem perhaps_oneOf (s : Section) (key : String) (l : List String) (d : OptVal F) :
    (∃ v, (opt key .str false (some (oneOf l)) d).parse c s = .ok v) ↔ Perhaps s key (· ∈ l) :=
  perhaps_parse c s _ rfl (ok_oneOf c key false l d)

theorem given_bool (s : Section) (key : String) (d : OptVal F) :
    (∃ v, (opt key .bool true none d).parse c s = .ok v) ↔ Given s key boolText :=
  given_parse c s _ rfl (ok_bool c key true d)

theorem perhaps_bool (s : Section) (key : String) (d : OptVal F) :
    (∃ v, (opt key .bool false none d).parse c s = .ok v) ↔ Perhaps s key boolText :=
  perhaps_parse c s _ rfl (ok_bool c key false d)

theorem given_int (s : Section) (key : String) (d : OptVal F) :
    (∃ v, (opt key .int true none d).parse c s = .ok v) ↔ Given s key (intText c anything) :=
  given_parse c s _ rfl (ok_int c key true d)

theorem perhaps_int (s : Section) (key : String) (d : OptVal F) :
    (∃ v, (opt key .int false none d).parse c s = .ok v) ↔ Perhaps s key (intText c anything) :=
  perhaps_parse c s _ rfl (ok_int c key false d)

theorem given_int_pos [Zero F] [LT F] [DecidableLT F] (s : Section) (key : String) (d : OptVal F) :
    (∃ v, (opt key .int true (some positive) d).parse c s = .ok v) ↔ Given s key (intText c (0 < ·)) :=
  given_parse c s _ rfl (ok_int_pos c key true d)

theorem perhaps_int_pos [Zero F] [LT F] [DecidableLT F] (s : Section) (key : String) (d : OptVal F) :
    (∃ v, (opt key .int false (some positive) d).parse c s = .ok v) ↔ Perhaps s key (intText c (0 < ·)) :=
  perhaps_parse c s _ rfl (ok_int_pos c key false d)

theorem given_dim (s : Section) (key : String) (d : OptVal F) :
    (∃ v, (opt key .int true (some atMost3dim) d).parse c s = .ok v) ↔ Given s key (intText c (0 < ·)) :=
  given_parse c s _ rfl (ok_dim c key true d)

theorem perhaps_dim (s : Section) (key : String) (d : OptVal F) :
    (∃ v, (opt key .int false (some atMost3dim) d).parse c s = .ok v) ↔ Perhaps s key (intText c (0 < ·)) :=
  perhaps_parse c s _ rfl (ok_dim c key false d)

theorem given_float (s : Section) (key : String) (d : OptVal F) :
    (∃ v, (opt key .float true none d).parse c s = .ok v) ↔ Given s key (floatText c anything) :=
  given_parse c s _ rfl (ok_float c key true d)

theorem perhaps_float (s : Section) (key : String) (d : OptVal F) :
    (∃ v, (opt key .float false none d).parse c s = .ok v) ↔ Perhaps s key (floatText c anything) :=
  perhaps_parse c s _ rfl (ok_float c key false d)

theorem given_float_pos [Zero F] [LT F] [DecidableLT F] (s : Section) (key : String) (d : OptVal F) :
    (∃ v, (opt key .float true (some positive) d).parse c s = .ok v) ↔ Given s key (floatText c (0 < ·)) :=
  given_parse c s _ rfl (ok_float_pos c key true d)

theorem perhaps_float_pos [Zero F] [LT F] [DecidableLT F] (s : Section) (key : String) (d : OptVal F) :
    (∃ v, (opt key .float false (some positive) d).parse c s = .ok v) ↔ Perhaps s key (floatText c (0 < ·)) :=
  perhaps_parse c s _ rfl (ok_float_pos c key false d)

theorem given_float_nonneg [Zero F] [LE F] [DecidableLE F] (s : Section) (key : String) (d : OptVal F) :
    (∃ v, (opt key .float true (some positiveOrZero) d).parse c s = .ok v) ↔ Given s key (floatText c (0 ≤ ·)) :=
  given_parse c s _ rfl (ok_float_nonneg c key true d)

theorem perhaps_float_nonneg [Zero F] [LE F] [DecidableLE F] (s : Section) (key : String) (d : OptVal F) :
    (∃ v, (opt key .float false (some positiveOrZero) d).parse c s = .ok v) ↔ Perhaps s key (floatText c (0 ≤ ·)) :=
  perhaps_parse c s _ rfl (ok_float_nonneg c key false d)

theorem given_floats (s : Section) (key : String) :
    (∃ v, (optList key .float true).parse c s = .ok v) ↔ Given s key (floatsText c anything) :=
  given_parse c s _ rfl (ok_floats c key true)

theorem perhaps_floats (s : Section) (key : String) :
    (∃ v, (optList key .float false).parse c s = .ok v) ↔ Perhaps s key (floatsText c anything) :=
  perhaps_parse c s _ rfl (ok_floats c key false)

theorem given_floats_pos [Zero F] [LT F] [DecidableLT F] (s : Section) (key : String) :
    (∃ v, (optList key .float true (some allPositive)).parse c s = .ok v) ↔ Given s key (floatsText c (0 < ·)) :=
  given_parse c s _ rfl (ok_floats_pos c key true)

theorem perhaps_floats_pos [Zero F] [LT F] [DecidableLT F] (s : Section) (key : String) :
    (∃ v, (optList key .float false (some allPositive)).parse c s = .ok v) ↔ Perhaps s key (floatsText c (0 < ·)) :=
  perhaps_parse c s _ rfl (ok_floats_pos c key false)

theorem given_ints_pos [Zero F] [LT F] [DecidableLT F] (s : Section) (key : String) :
    (∃ v, (optList key .int true (some allPositive)).parse c s = .ok v) ↔ Given s key (intsText c (0 < ·)) :=
  given_parse c s _ rfl (ok_ints_pos c key true)

theorem perhaps_ints_pos [Zero F] [LT F] [DecidableLT F] (s : Section) (key : String) :
    (∃ v, (optList key .int false (some allPositive)).parse c s = .ok v) ↔ Perhaps s key (intsText c (0 < ·)) :=
  perhaps_parse c s _ rfl (ok_ints_pos c key false)

/-! ### Sections -/

macro "option_simp" : tactic => `(tactic| simp only [List.cons_append, List.nil_append, List.forall_mem_cons, List.not_mem_nil,
  IsEmpty.forall_iff, implies_true, and_true, given_str, perhaps_str, given_oneOf, perhaps_oneOf, given_bool, perhaps_bool, given_int, perhaps_int, given_int_pos, perhaps_int_pos, given_dim, perhaps_dim, given_float, perhaps_float, given_float_pos, perhaps_float_pos, given_float_nonneg, perhaps_float_nonneg, given_floats, perhaps_floats, given_floats_pos, perhaps_floats_pos, given_ints_pos, perhaps_ints_pos])

/-- Success of two steps. -/
theorem bind_ok_iff {α β : Type} (x : Except PyErr α) (f : α → Except PyErr β) :
    (∃ b, (x >>= f) = .ok b) ↔ ∃ a, x = .ok a ∧ ∃ b, f a = .ok b := by
  cases x with
  | error e => rw [error_bind]; simp
  | ok a => rw [ok_bind]; simp

/-- The text of an option that is given. -/
theorem str_parse (s : Section) (key : String) (b : Bool) (d v : OptVal F) (h : (opt key .str b none d).parse c s = .ok v) :
    (s.entries.get? key = none ∧ v = d) ∨ ∃ raw, s.entries.get? key = some (.ok raw) ∧ v = .base (.str raw) := by
  unfold InputOption.parse at h
  cases hg : s.entries.get? key with
  | none =>
    simp only [opt, hg] at h
    cases b <;> cases h
    exact .inl ⟨rfl, rfl⟩
  | some r =>
    right
    simp only [opt, hg] at h
    cases r with
    | error e => cases h
    | ok raw => cases h; exact ⟨raw, rfl, rfl⟩

theorem given_eq {s : Section} {key raw : String} {P : String → Prop} (h : s.entries.get? key = some (.ok raw)) :
    Given s key P ↔ P raw := by
  unfold Given
  rw [h]
  constructor
  · rintro ⟨r, h1, h2⟩; cases h1; exact h2
  · exact fun h => ⟨raw, rfl, h⟩

theorem given_mono {s : Section} {key : String} {P Q : String → Prop} (h : ∀ r, P r → Q r) (hg : Given s key P) : Given s key Q := by
  obtain ⟨r, h1, h2⟩ := hg
  exact ⟨r, h1, h r h2⟩

theorem str_given (s : Section) (key : String) (b : Bool) (d : OptVal F) {raw : String} (h : s.entries.get? key = some (.ok raw)) :
    (opt key .str b none d).parse c s = .ok (.base (.str raw)) := by
  unfold InputOption.parse
  simp only [opt, h]
  rfl

section
variable [Zero F] [LT F] [DecidableLT F]

theorem trajectories_iff (s : Section) : (∃ d, parseSection c s trajectoriesOptions = .ok d) ↔ TrajectoriesText c s := by
  rw [parseSection_iff, trajectoriesOptions]
  option_simp
  constructor
  · rintro ⟨h1, h2, h3, h4, h5⟩
    exact ⟨⟨h2, h1, h4, h5⟩, h3⟩
  · rintro ⟨⟨h2, h1, h4, h5⟩, h3⟩
    exact ⟨h1, h2, h3, h4, h5⟩

theorem fes_iff (s : Section) : (∃ d, parseSection c s fesOptions = .ok d) ↔ FesText c s := by
  rw [parseSection_iff, fesOptions]
  option_simp
  constructor
  · rintro ⟨h1, h2, h3, h4, h5, h6, h7, h8, h9⟩
    exact ⟨⟨h2, h3, h4, h5⟩, h1, h6, h7, h8, h9⟩
  · rintro ⟨⟨h2, h3, h4, h5⟩, h1, h6, h7, h8, h9⟩
    exact ⟨h1, h2, h3, h4, h5, h6, h7, h8, h9⟩

theorem birthDeath_iff (oneDim : Bool) (s : Section) :
    (∃ d, parseSection c s (birthDeathOptions oneDim) = .ok d) ↔ BirthDeathText c (oneDim = true) s := by
  rw [parseSection_iff, birthDeathOptions]
  cases oneDim
  · simp only [Bool.false_eq_true, if_false]
    option_simp
    constructor
    · rintro ⟨h1, h2, h3, h4, h5, h6, h7, h8, h9⟩
      exact ⟨h1, h2, h3, h4, h5, h6, h7, h8, fun h => h.elim, fun _ => h9⟩
    · rintro ⟨h1, h2, h3, h4, h5, h6, h7, h8, _, h9⟩
      exact ⟨h1, h2, h3, h4, h5, h6, h7, h8, h9 id⟩
  · simp only [if_true]
    option_simp
    constructor
    · rintro ⟨h1, h2, h3, h4, h5, h6, h7, h8, h9⟩
      exact ⟨h1, h2, h3, h4, h5, h6, h7, h8, fun _ => h9, fun h => (h trivial).elim⟩
    · rintro ⟨h1, h2, h3, h4, h5, h6, h7, h8, h9, _⟩
      exact ⟨h1, h2, h3, h4, h5, h6, h7, h8, h9 trivial⟩

theorem histogram_iff (oneDim : Bool) (s : Section) :
    (∃ d, parseSection c s (histogramOptions oneDim) = .ok d) ↔ HistogramText c (oneDim = true) s := by
  rw [parseSection_iff, histogramOptions]
  cases oneDim
  · simp only [Bool.false_eq_true, if_false]
    option_simp
    constructor
    · rintro ⟨h1, h2, h3, h4, h5, h6, h7, h8⟩
      exact ⟨⟨h1, h3, h4, h5⟩, h2, fun h => h.elim, fun h => h.elim, fun h => h.elim, fun _ => h8, fun _ => h6, fun _ => h7⟩
    · rintro ⟨⟨h1, h3, h4, h5⟩, h2, _, _, _, h8, h6, h7⟩
      exact ⟨h1, h2, h3, h4, h5, h6 id, h7 id, h8 id⟩
  · simp only [if_true]
    option_simp
    constructor
    · rintro ⟨h1, h2, h3, h4, h5, h6, h7, h8⟩
      exact ⟨⟨h1, h3, h4, h5⟩, h2, fun _ => h8, fun _ => h6, fun _ => h7, fun h => (h trivial).elim, fun h => (h trivial).elim,
        fun h => (h trivial).elim⟩
    · rintro ⟨⟨h1, h3, h4, h5⟩, h2, h8, h6, h7, _, _, _⟩
      exact ⟨h1, h2, h3, h4, h5, h6 trivial, h7 trivial, h8 trivial⟩

theorem ld_iff [LE F] [DecidableLE F] (s : Section) : (∃ d, parseLd c s = .ok d) ↔ LdText c s := by
  rw [parseLd, bind_ok_iff]
  constructor
  · rintro ⟨t, h1, h2⟩
    rw [bind_ok_iff] at h2
    obtain ⟨options, h2, h3⟩ := h2
    rw [parseSection_iff] at h3
    rcases str_parse c s _ _ _ _ h1 with ⟨_, rfl⟩ | ⟨raw, hg, rfl⟩
    · cases h2
    unfold ldOptions at h2
    split at h2
    · rename_i e
      cases h2
      cases e
      revert h3
      option_simp
      rintro ⟨_, a1, a2, a3, a4, a5⟩
      exact ⟨(given_eq hg).2 (.inr rfl), a1, a2, a3, fun _ => a4, fun _ => a5⟩
    · rename_i e
      cases h2
      cases e
      revert h3
      option_simp
      rintro ⟨_, a1, a2, a3⟩
      exact ⟨(given_eq hg).2 (.inl rfl), a1, a2, a3, fun h => absurd ((given_eq hg).1 h) (by decide),
        fun h => absurd ((given_eq hg).1 h) (by decide)⟩
    · cases h2
  · rintro ⟨⟨raw, hg, h⟩, a1, a2, a3, a4, a5⟩
    refine ⟨_, str_given c s _ _ _ hg, ?_⟩
    rcases h with rfl | rfl
    · refine (bind_ok_iff _ _).2 ⟨_, rfl, ?_⟩
      rw [parseSection_iff]
      option_simp
      exact ⟨.inr ⟨_, hg, trivial⟩, a1, a2, a3⟩
    · refine (bind_ok_iff _ _).2 ⟨_, rfl, ?_⟩
      rw [parseSection_iff]
      option_simp
      exact ⟨.inr ⟨_, hg, trivial⟩, a1, a2, a3, a4 ⟨_, hg, rfl⟩, a5 ⟨_, hg, rfl⟩⟩

omit [Zero F] [LT F] [DecidableLT F] in
theorem int_parse (s : Section) (key : String) (b : Bool) (f : Option (Condition F)) (d v : OptVal F)
    (h : (opt key .int b f d).parse c s = .ok v) : (s.entries.get? key = none ∧ b = false ∧ v = d) ∨
      ∃ raw i, s.entries.get? key = some (.ok raw) ∧ c.toInt raw = some i ∧ v = .base (.int i) := by
  unfold InputOption.parse at h
  cases hg : s.entries.get? key with
  | none =>
    simp only [opt, hg] at h
    cases b <;> cases h
    exact .inl ⟨rfl, rfl, rfl⟩
  | some r =>
    right
    simp only [opt, hg] at h
    split at h
    · cases h
    · rename_i w hw
      obtain ⟨raw, rfl, i, h1, rfl⟩ : ∃ raw, r = .ok raw ∧ ∃ i, c.toInt raw = some i ∧ w = .base (.int i) := by
        obtain ⟨raw, rfl, x, ⟨i, hd, rfl⟩, rfl⟩ := convert_ok c _ s.name r w hw
        exact ⟨raw, rfl, i, hd, rfl⟩
      refine ⟨raw, i, rfl, h1, ?_⟩
      split at h
      · exact (Except.ok.inj h).symm
      · split at h
        · cases h
        · exact (Except.ok.inj h).symm
        · cases h

omit [Zero F] [LT F] [DecidableLT F] in
theorem oneDim_parse (s : Section) (b : Bool) (f : Option (Condition F)) (d v : OptVal F) (hd : b = false → d ≠ .base (.int 1))
    (h : (opt "n_dim" .int b f d).parse c s = .ok v) : v = .base (.int 1) ↔ OneDimText c s := by
  rcases int_parse c s _ _ _ _ _ h with ⟨hg, hb, rfl⟩ | ⟨raw, i, hg, hi, rfl⟩
  · refine ⟨fun e => absurd e (hd hb), ?_⟩
    rintro ⟨raw, h1, _⟩
    rw [hg] at h1
    cases h1
  · rw [OneDimText, given_eq hg, intText, hi]
    simp

omit [Zero F] [LT F] [DecidableLT F] in
theorem potential_iff (s : Section) : (∃ d, parsePotential c s = .ok d) ↔ PotentialText c s := by
  rw [parsePotential, bind_ok_iff]
  constructor
  · rintro ⟨options, h2, h3⟩
    rw [parseSection_iff] at h3
    unfold potentialOptions at h2
    obtain ⟨t, h1, h2⟩ := bind_ok h2
    obtain ⟨o', h4, h2⟩ := bind_ok h2
    cases h2
    rcases str_parse c s _ _ _ _ h1 with ⟨hg, _⟩ | ⟨raw, hg, rfl⟩
    · rw [InputOption.parse] at h1
      simp only [opt, hg] at h1
      cases h1
    split at h4
    · rename_i e
      cases e
      obtain ⟨nd, h5, h4⟩ := bind_ok h4
      cases h4
      have ho := oneDim_parse c s _ _ _ _ (by simp) h5
      have hd := (given_dim c s "n_dim" .none).1 ⟨_, h5⟩
      unfold polyOptions at h3
      split at h3
      · revert h3
        option_simp
        rintro ⟨_, _, a1, a2, a3, a4⟩
        exact ⟨(given_eq hg).2 (.inl rfl), a4, .inr (given_mono (fun r ⟨i, h, _⟩ => ⟨i, h, trivial⟩) hd),
          fun h => absurd ((given_eq hg).1 h) (by decide), fun _ => hd, fun _ _ => ⟨a1, a2, a3⟩, fun _ h => absurd (ho.1 rfl) h⟩
      · rename_i hne
        revert h3
        option_simp
        rintro ⟨_, _, a1, a2, a3, a4⟩
        exact ⟨(given_eq hg).2 (.inl rfl), a4, .inr (given_mono (fun r ⟨i, h, _⟩ => ⟨i, h, trivial⟩) hd),
          fun h => absurd ((given_eq hg).1 h) (by decide), fun _ => hd, fun _ h => absurd (ho.2 h) hne, fun _ _ => ⟨a1, a2, a3⟩⟩
    · rename_i e
      cases e
      cases h4
      revert h3
      option_simp
      rintro ⟨_, a1, a2, a3⟩
      have hp : ¬ Given s "type" (· = "polynomial") := fun h => absurd ((given_eq hg).1 h) (by decide)
      exact ⟨(given_eq hg).2 (.inr rfl), a3, a2, fun _ => a1, fun h => absurd h hp, fun h => absurd h hp, fun h => absurd h hp⟩
    · cases h4
  · rintro ⟨⟨raw, hg, h⟩, a1, a2, a3, a4, a5, a6⟩
    rcases h with rfl | rfl
    · have hp : Given s "type" (· = "polynomial") := ⟨_, hg, rfl⟩
      obtain ⟨nd, h5⟩ := (given_dim c s "n_dim" .none).2 (a4 hp)
      have ho := oneDim_parse c s _ _ _ _ (by simp) h5
      refine ⟨polyOptions nd ++ [opt "boundary-condition" .str false], ?_, ?_⟩
      · rw [potentialOptions, str_given c s _ _ _ hg, ok_bind]
        rw [h5]
        rfl
      · rw [parseSection_iff]
        unfold polyOptions
        split
        · have hb := a5 hp (ho.1 rfl)
          option_simp
          exact ⟨⟨_, hg, trivial⟩, a4 hp, hb.coeffs, hb.min, hb.max, a1⟩
        · rename_i hne
          have hb := a6 hp fun h => hne (ho.2 h)
          option_simp
          exact ⟨⟨_, hg, trivial⟩, a4 hp, hb.coeffsFile, hb.min, hb.max, a1⟩
    · refine ⟨[opt "type" .str true, opt "scaling-factor" .float false, opt "n_dim" .int false none (.base (.int 2))] ++
          [opt "boundary-condition" .str false], ?_, ?_⟩
      · rw [potentialOptions, str_given c s _ _ _ hg, ok_bind]
        rfl
      · rw [parseSection_iff]
        option_simp
        exact ⟨⟨_, hg, trivial⟩, a3 ⟨_, hg, rfl⟩, a2, a1⟩

omit [Zero F] [LT F] [DecidableLT F] in
theorem parsed_get {s : Section} {options : List (InputOption F)} {d : Dict (OptVal F)}
    (h : parseSection c s options = .ok d) (hn : (options.map (·.key)).Nodup) (o : InputOption F)
    (ho : o ∈ options) (v : OptVal F) (hv : o.parse c s = .ok v) : d.get? o.key = some v := by
  obtain ⟨w, hw, hw'⟩ := (parseLoop_spec c s _ [] d h).2.2 hn o ho
  rw [hv] at hw
  cases hw
  exact hw'

omit [Zero F] [LT F] [DecidableLT F] in
/-- One dimension in the parsed potential. -/
theorem isOneDim_iff (s : Section) (d : Dict (OptVal F)) (h : parsePotential c s = .ok d) : isOneDim d = true ↔ OneDimText c s := by
  have key : ∀ v, d.get? "n_dim" = some v → (v = .base (.int 1) ↔ OneDimText c s) → (isOneDim d = true ↔ OneDimText c s) := by
    intro v h1 h2
    rw [← h2, isOneDim, h1]
    split
    · rename_i e
      simpa using e
    · rename_i hne
      simp only [Bool.false_eq_true, false_iff]
      exact fun e => hne (by rw [e])
  unfold parsePotential at h
  obtain ⟨options, h2, h3⟩ := bind_ok h
  unfold potentialOptions at h2
  obtain ⟨t, h1, h2⟩ := bind_ok h2
  obtain ⟨o', h4, h2⟩ := bind_ok h2
  cases h2
  split at h4
  · obtain ⟨nd, h5, h4⟩ := bind_ok h4
    cases h4
    have ho := oneDim_parse c s _ _ _ _ (by simp) h5
    refine key nd (parsed_get c h3 ?_ (opt "n_dim" .int true (some atMost3dim)) ?_ nd h5) ho
    · unfold polyOptions
      split <;> simp [opt, optList]
    · unfold polyOptions
      split <;> simp
  · cases h4
    obtain ⟨nd, h5⟩ := (parseSection_iff c s _).1 ⟨_, h3⟩ (opt "n_dim" .int false none (.base (.int 2))) (by simp)
    have ho := oneDim_parse c s _ _ _ _ (by simp) h5
    exact key nd (parsed_get c h3 (by simp [opt]) (opt "n_dim" .int false none (.base (.int 2))) (by simp) nd h5) ho
  · cases h4

omit [Zero F] [LT F] [DecidableLT F] in
/-- Numbered options with the same condition. -/
theorem numbered_given {s : Section} {pre suf : String} {texts : List String} {P : String → Prop}
    (h : Numbered s.entries.get? pre suf (texts.map .ok)) :
    (∀ i < texts.length, Given s (numKey pre suf (i + 1)) P) ↔ ∀ t ∈ texts, P t := by
  have hg : ∀ i (hi : i < texts.length), s.entries.get? (numKey pre suf (i + 1)) = some (.ok texts[i]) := by
    intro i hi
    have := h.1 i (by simpa using hi)
    rw [numKey, this]
    simp [hi]
  constructor
  · intro h1 t ht
    obtain ⟨i, hi, rfl⟩ := List.getElem_of_mem ht
    exact (given_eq (hg i hi)).1 (h1 i hi)
  · intro h1 i hi
    exact (given_eq (hg i hi)).2 (h1 _ (List.getElem_mem hi))

omit [Zero F] [LT F] [DecidableLT F] in
theorem oneOf_parse (s : Section) (key : String) (l : List String) (d v : OptVal F) :
    (opt key .str true (some (oneOf l)) d).parse c s = .ok v ↔
      ∃ raw, s.entries.get? key = some (.ok raw) ∧ raw ∈ l ∧ v = .base (.str raw) := by
  unfold InputOption.parse
  cases hg : s.entries.get? key with
  | none => simp [opt, hg]
  | some r =>
    cases r with
    | error e =>
      simp only [opt, hg]
      constructor
      · intro h; cases h
      · rintro ⟨raw, h, _⟩; cases h
    | ok raw =>
      have hc : InputOption.convert c (opt key .str true (some (oneOf l)) d) s.name (.ok raw) = .ok (.base (.str raw)) := rfl
      simp only [opt] at hc
      simp only [opt, hg, hc, oneOf]
      by_cases hm : raw ∈ l
      · simp [hm, eq_comm]
      · simp [hm]

theorem particles_options_iff (one : F) (s : Section) (raw : String)
    (hg : s.entries.get? "initial-distribution" = some (.ok raw)) (hm : raw ∈ initialDistributions)
    (options : List (InputOption F)) : particlesOptions one c s = .ok options ↔
      (raw = "random-global" ∧ options = [opt "number" .int true (some positive),
        opt "mass" .float false (some positive) (.base (.float one)), opt "seed" .int false,
        opt "initial-distribution" .str true (some (oneOf initialDistributions))]) ∨
      (raw ≠ "random-global" ∧ ∃ texts : List String, Numbered s.entries.get? "pos" "" (texts.map .ok) ∧
        options = [opt "number" .int true (some positive),
          opt "mass" .float false (some positive) (.base (.float one)), opt "seed" .int false,
          opt "initial-distribution" .str true (some (oneOf initialDistributions))] ++
          (List.range texts.length).map (fun i => optList (numKey "pos" "" (i + 1)) .float true) ++
          (if raw = "fractions-pos" then [optList "fractions" .float true] else [])) := by
  unfold particlesOptions
  dsimp only
  rw [(oneOf_parse c s "initial-distribution" initialDistributions .none _).2 ⟨raw, hg, hm, rfl⟩, ok_bind]
  simp only [initialDistributions, List.mem_cons, List.not_mem_nil, or_false] at hm
  rcases hm with rfl | rfl | rfl
  · simp [pure_eq_ok, ok_bind, eq_comm]
  · cases hn : numberedSection s "pos" "" with
    | error e =>
      have : ∀ texts : List String, ¬ Numbered s.entries.get? "pos" "" (texts.map .ok) := fun texts h => by
        rw [(numbered_section s _ _ _).2 h] at hn
        cases hn
      simp [this]
    | ok texts =>
      simp [ok_bind, pure_eq_ok, ← numbered_section, hn, eq_comm]
  · cases hn : numberedSection s "pos" "" with
    | error e =>
      have : ∀ texts : List String, ¬ Numbered s.entries.get? "pos" "" (texts.map .ok) := fun texts h => by
        rw [(numbered_section s _ _ _).2 h] at hn
        cases hn
      simp [this]
    | ok texts =>
      simp [ok_bind, pure_eq_ok, ← numbered_section, hn, eq_comm]

theorem particles_iff (one : F) (s : Section) : (∃ d, parseParticles one c s = .ok d) ↔ ParticlesText c s := by
  rw [parseParticles, bind_ok_iff]
  have hl : ∀ n, (∀ o ∈ (List.range n).map (fun i => (optList (numKey "pos" "" (i + 1)) .float true : InputOption F)),
      ∃ v, o.parse c s = .ok v) ↔ ∀ i < n, Given s (numKey "pos" "" (i + 1)) (floatsText c anything) := by
    intro n
    simp only [List.mem_map, List.mem_range, forall_exists_index, and_imp, forall_apply_eq_imp_iff₂, given_floats]
  constructor
  · rintro ⟨options, h2, h3⟩
    rw [parseSection_iff] at h3
    obtain ⟨raw, hg, hm⟩ : ∃ raw, s.entries.get? "initial-distribution" = some (.ok raw) ∧ raw ∈ initialDistributions := by
      unfold particlesOptions at h2
      obtain ⟨v, hv, _⟩ := bind_ok h2
      obtain ⟨raw, h1, h2, _⟩ := (oneOf_parse c s _ _ _ _).1 hv
      exact ⟨raw, h1, h2⟩
    have hm' : raw = "random-global" ∨ raw = "random-pos" ∨ raw = "fractions-pos" := by
      simpa [initialDistributions] using hm
    rcases (particles_options_iff c one s raw hg hm options).1 h2 with ⟨rfl, rfl⟩ | ⟨hne, texts, ht, rfl⟩
    · revert h3
      option_simp
      rintro ⟨a1, a2, a3, a4⟩
      exact ⟨a1, a2, a3, ⟨_, hg, hm'⟩, fun h => absurd ((given_eq hg).1 h) (by decide),
        fun h => absurd ((given_eq hg).1 h) (by decide)⟩
    · simp only [List.forall_mem_append, hl] at h3
      obtain ⟨⟨h3, h4⟩, h5⟩ := h3
      revert h3
      option_simp
      rintro ⟨a1, a2, a3, a4⟩
      refine ⟨a1, a2, a3, ⟨_, hg, hm'⟩, fun _ => ⟨texts, ht, (numbered_given ht).1 h4⟩, fun h => ?_⟩
      rw [if_pos ((given_eq hg).1 h)] at h5
      revert h5
      option_simp
      exact id
  · rintro ⟨a1, a2, a3, ⟨raw, hg, hm'⟩, a5, a6⟩
    have hm : raw ∈ initialDistributions := by simpa [initialDistributions] using hm'
    have hopt : Given s "initial-distribution" (· ∈ initialDistributions) := ⟨raw, hg, hm⟩
    by_cases hr : raw = "random-global"
    · refine ⟨_, (particles_options_iff c one s raw hg hm _).2 (.inl ⟨hr, rfl⟩), ?_⟩
      rw [parseSection_iff]
      option_simp
      exact ⟨a1, a2, a3, hopt⟩
    · obtain ⟨texts, ht, hp⟩ := a5 ((given_eq hg).2 (hm'.resolve_left hr))
      refine ⟨_, (particles_options_iff c one s raw hg hm _).2 (.inr ⟨hr, texts, ht, rfl⟩), ?_⟩
      rw [parseSection_iff]
      simp only [List.forall_mem_append, hl]
      refine ⟨⟨?_, (numbered_given ht).2 hp⟩, ?_⟩
      · option_simp
        exact ⟨a1, a2, a3, hopt⟩
      · split
        · rename_i hf
          option_simp
          exact a6 ((given_eq hg).2 hf)
        · option_simp

omit [Zero F] [LT F] [DecidableLT F] in
theorem state_options_iff (s : Section) (options : List (InputOption F)) : numberedStateOptions s = .ok options ↔
    ∃ mins maxs : List String, Numbered s.entries.get? "state" "-min" (mins.map .ok) ∧
      Numbered s.entries.get? "state" "-max" (maxs.map .ok) ∧ mins.length = maxs.length ∧ mins ≠ [] ∧
      options = (List.range mins.length).flatMap (fun i =>
        [optList (numKey "state" "-min" (i + 1)) .float true, optList (numKey "state" "-max" (i + 1)) .float true]) := by
  constructor
  · intro h
    obtain ⟨mins, maxs, h1, h2, h3, h4⟩ := state_options_inv s options h
    refine ⟨mins, maxs, h1, h2, h3, by intro e; simp [e] at h4, ?_⟩
    unfold numberedStateOptions at h
    rw [(numbered_section s _ _ _).mpr h1, ok_bind, (numbered_section s _ _ _).mpr h2, ok_bind] at h
    simp only [ne_eq, h3, not_true_eq_false, if_false] at h
    split at h
    · cases h
    · rw [h3]
      exact (Except.ok.inj h).symm
  · rintro ⟨mins, maxs, h1, h2, h3, h4, rfl⟩
    unfold numberedStateOptions
    rw [(numbered_section s _ _ _).mpr h1, ok_bind, (numbered_section s _ _ _).mpr h2, ok_bind]
    simp only [ne_eq, h3, not_true_eq_false, if_false]
    rw [if_neg]
    · rfl
    · rw [← h3]
      intro h
      have := congrArg List.length h
      simp [List.length_flatMap] at this
      exact h4 (List.length_eq_zero_iff.1 (by omega))

theorem states_iff (s : Section) : (∃ d, (stateActionOptions s >>= fun options => parseSection c s options) = .ok d) ↔ StatesText c s := by
  have hl : ∀ n, (∀ o ∈ (List.range n).flatMap (fun i => ([optList (numKey "state" "-min" (i + 1)) .float true,
      optList (numKey "state" "-max" (i + 1)) .float true] : List (InputOption F))), ∃ v, o.parse c s = .ok v) ↔
      (∀ i < n, Given s (numKey "state" "-min" (i + 1)) (floatsText c anything)) ∧
      ∀ i < n, Given s (numKey "state" "-max" (i + 1)) (floatsText c anything) := by
    intro n
    simp only [List.mem_flatMap, List.mem_range, forall_exists_index, and_imp]
    constructor
    · intro h
      refine ⟨fun i hi => ?_, fun i hi => ?_⟩
      · exact (given_floats c s _).1 (h _ i hi (by simp))
      · exact (given_floats c s _).1 (h _ i hi (by simp))
    · rintro ⟨h1, h2⟩ o i hi ho
      simp only [List.mem_cons, List.not_mem_nil, or_false] at ho
      rcases ho with rfl | rfl
      · exact (given_floats c s _).2 (h1 i hi)
      · exact (given_floats c s _).2 (h2 i hi)
  rw [bind_ok_iff]
  constructor
  · rintro ⟨options, h1, h2⟩
    unfold stateActionOptions at h1
    obtain ⟨o', h0, h3⟩ := bind_ok h1
    cases h3
    obtain ⟨mins, maxs, b1, b2, b3, b4, rfl⟩ := (state_options_iff s _).1 h0
    rw [parseSection_iff] at h2
    simp only [List.forall_mem_append, hl] at h2
    obtain ⟨h2, h3, h4⟩ := h2
    revert h2
    option_simp
    rintro ⟨a1, a2, a3, a4⟩
    exact ⟨⟨a1, a2, a3, a4⟩, mins, maxs, b1, b2, b3, b4, (numbered_given b1).1 h3, (numbered_given b2).1 (b3 ▸ h4)⟩
  · rintro ⟨⟨a1, a2, a3, a4⟩, mins, maxs, b1, b2, b3, b4, b5, b6⟩
    refine ⟨_, (by
      unfold stateActionOptions
      rw [(state_options_iff s _).2 ⟨mins, maxs, b1, b2, b3, b4, rfl⟩, ok_bind]
      rfl), ?_⟩
    rw [parseSection_iff]
    simp only [List.forall_mem_append, hl]
    refine ⟨?_, (numbered_given b1).2 b5, b3 ▸ (numbered_given b2).2 b6⟩
    option_simp
    exact ⟨a1, a2, a3, a4⟩

omit [Zero F] [LT F] [DecidableLT F] in
/-- Optional sections. -/
theorem parseOptional_iff (cfg : List Section) (name : String) (f : Section → Except PyErr (Dict (OptVal F))) :
    (∃ r, parseOptional cfg name f = .ok r) ↔ ∀ s, findSection cfg name = some s → ∃ d, f s = .ok d := by
  unfold parseOptional
  cases findSection cfg name with
  | none => simp
  | some s =>
    cases hf : f s with
    | error e => simp [hf]
    | ok d => simp [hf, ok_bind, pure_eq_ok]

omit [Zero F] [LT F] [DecidableLT F] in
theorem parseOptional_isNone {cfg : List Section} {name : String} {f : Section → Except PyErr (Dict (OptVal F))}
    {r : Option (Dict (OptVal F))} (h : parseOptional cfg name f = .ok r) : r.isNone = (findSection cfg name).isNone := by
  unfold parseOptional at h
  cases hs : findSection cfg name with
  | none => rw [hs] at h; cases h; rfl
  | some s =>
    rw [hs] at h
    obtain ⟨d, _, h⟩ := bind_ok h
    cases h
    rfl

omit [Zero F] [LT F] [DecidableLT F] in
theorem requireSection_ok {cfg : List Section} {name : String} {s : Section} (h : findSection cfg name = some s) :
    requireSection cfg name = .ok s := by
  unfold requireSection
  rw [h]

/-- **C117.** The parser accepts exactly the described input files. -/
theorem input_accepted [LE F] [DecidableLE F] (one : F) (cfg : List Section) :
    (∃ inp, parseAll one c (some cfg) = .ok inp) ↔ InputText c cfg := by
  constructor
  · rintro ⟨inp, h⟩
    obtain ⟨cfg', sLd, sPot, sPart, e, h1, h2, h3, h4, h5, h6, h7, h8, h9, h10, h11, h12⟩ := parseAll_inv one _ inp h
    cases e
    have ho : (isOneDim inp.potential = true) = OneDimText c sPot := propext (isOneDim_iff c sPot _ h5)
    refine ⟨⟨sLd, h1, (ld_iff c _).1 ⟨_, h4⟩⟩, ⟨sPot, h2, (potential_iff c _).1 ⟨_, h5⟩, fun t ht => ?_, fun t ht => ?_⟩,
      ⟨sPart, h3, (particles_iff c one _).1 ⟨_, h6⟩⟩, fun t ht => ?_, fun t ht => ?_, fun t ht => ?_, fun t ht => ?_⟩
    · exact ho ▸ (birthDeath_iff c _ t).1 ((parseOptional_iff _ _ _).1 ⟨_, h7⟩ t ht)
    · exact ho ▸ (histogram_iff c _ t).1 ((parseOptional_iff _ _ _).1 ⟨_, h9⟩ t ht)
    · exact (trajectories_iff c t).1 ((parseOptional_iff _ _ _).1 ⟨_, h8⟩ t ht)
    · have := (parseOptional_iff _ _ _).1 ⟨_, h10⟩ t ht
      rw [parseOptional_isNone h9] at this
      cases hh : findSection cfg "histogram" with
      | none => rw [hh] at this; obtain ⟨_, hd⟩ := this; cases hd
      | some sh => rw [hh] at this; exact ⟨rfl, (fes_iff c t).1 this⟩
    · have := (parseOptional_iff _ _ _).1 ⟨_, h11⟩ t ht
      rw [parseOptional_isNone h10] at this
      cases hh : findSection cfg "fes" with
      | none => rw [hh] at this; obtain ⟨_, hd⟩ := this; cases hd
      | some sh => rw [hh] at this; exact ⟨rfl, (states_iff c t).1 this⟩
    · exact (states_iff c t).1 ((parseOptional_iff _ _ _).1 ⟨_, h12⟩ t ht)
  · rintro ⟨⟨sLd, h1, a1⟩, ⟨sPot, h2, a2, b1, b2⟩, ⟨sPart, h3, a3⟩, b3, b4, b5, b6⟩
    obtain ⟨ld, c1⟩ := (ld_iff c _).2 a1
    obtain ⟨pot, c2⟩ := (potential_iff c _).2 a2
    obtain ⟨part, c3⟩ := (particles_iff c one _).2 a3
    have ho : (isOneDim pot = true) = OneDimText c sPot := propext (isOneDim_iff c sPot _ c2)
    rw [← ho] at b1 b2
    obtain ⟨bd, d1⟩ := (parseOptional_iff cfg "birth-death" (fun s => parseSection c s (birthDeathOptions (isOneDim pot)))).2
      fun s hs => (birthDeath_iff c _ s).2 (b1 s hs)
    obtain ⟨traj, d2⟩ := (parseOptional_iff cfg "trajectories" (fun s => parseSection c s trajectoriesOptions)).2
      fun s hs => (trajectories_iff c s).2 (b3 s hs)
    obtain ⟨hist, d3⟩ := (parseOptional_iff cfg "histogram" (fun s => parseSection c s (histogramOptions (isOneDim pot)))).2
      fun s hs => (histogram_iff c _ s).2 (b2 s hs)
    obtain ⟨fes, d4⟩ := (parseOptional_iff cfg "fes" (fun s => if hist.isNone then throw (.noSectionError "histogram")
      else parseSection c s fesOptions)).2 fun s hs => by
        obtain ⟨e1, e2⟩ := b4 s hs
        rw [parseOptional_isNone d3]
        cases hh : findSection cfg "histogram" with
        | none => rw [hh] at e1; cases e1
        | some sh => exact (fes_iff c s).2 e2
    obtain ⟨df, d5⟩ := (parseOptional_iff cfg "delta-f" (fun s => if fes.isNone then throw (.noSectionError "fes")
      else do
        let options ← stateActionOptions s
        parseSection c s options)).2 fun s hs => by
        obtain ⟨e1, e2⟩ := b5 s hs
        rw [parseOptional_isNone d4]
        cases hh : findSection cfg "fes" with
        | none => rw [hh] at e1; cases e1
        | some sh => exact (states_iff c s).2 e2
    obtain ⟨pd, d6⟩ := (parseOptional_iff cfg "particle-distribution" (fun s => do
      let options ← stateActionOptions s
      parseSection c s options)).2 fun s hs => (states_iff c s).2 (b6 s hs)
    refine ⟨⟨ld, pot, part, bd, traj, hist, fes, df, pd⟩, ?_⟩
    unfold parseAll
    simp only [pure_eq_ok, ok_bind, requireSection_ok h1, requireSection_ok h2, requireSection_ok h3, c1, c2, c3]
    rw [d1, ok_bind, d2, ok_bind, d3, ok_bind, d4, ok_bind, d5, ok_bind, d6, ok_bind]

end

end

end Bdld
