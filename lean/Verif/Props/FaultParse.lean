import Verif.Props.InputText
import Verif.Spec.Faults
import Verif.Model.Main

/-
C134, part 1: an `OptionError` of the parser names an option that violates its condition.
-/

namespace Bdld
open Spec

section
variable {F : Type} (c : Conv F)

/-- The only error in the values of a section is that of interpolation. -/
def Spec.PlainSection (s : Section) : Prop := ∀ key e, s.entries.get? key = some (.error e) → e = .interpolationError

/-- Conditions raise only `TypeError`. -/
def CondOk (o : InputOption F) : Prop := ∀ f, o.condition = some f → ∀ v e, f v = .error e → e = .typeError

theorem callType_error (t : BaseType) (x : String) (e : PyErr) (h : callType c t x = .error e) : e = .valueError := by
  have aux : ∀ {α β : Type} (a : Option α) (g : α → β), (orValueError a >>= fun y => pure (g y)) = Except.error e → e = .valueError := by
    intro α β a g h
    cases a with
    | none => exact (Except.error.inj h).symm
    | some y => cases h
  cases t
  · cases h
  · exact aux _ _ h
  · exact aux _ _ h
  · cases h

theorem mapM_blame {α β : Type} (f : α → Except PyErr β) (e : PyErr) : ∀ l : List α, l.mapM f = .error e → ∃ a ∈ l, f a = .error e
  | [], h => by cases h
  | a :: l, h => by
    rw [List.mapM_cons] at h
    cases hf : f a with
    | error e' =>
      rw [hf] at h
      rw [error_bind] at h
      exact ⟨a, by simp, by rw [hf]; exact congrArg _ (Except.error.inj h)⟩
    | ok b =>
      rw [hf, ok_bind] at h
      cases hl : l.mapM f with
      | error e' =>
        rw [hl] at h
        obtain ⟨x, hx, hx'⟩ := mapM_blame f e' l hl
        refine ⟨x, by simp [hx], ?_⟩
        rw [hx']
        rw [error_bind] at h
        exact congrArg _ (Except.error.inj h)
      | ok bs =>
        rw [hl] at h
        cases h

/-- An exception of the conversion that is caught names the option; conversions of lists do not raise such. -/
theorem convert_blame (o : InputOption F) (sec : String) (raw : Except PyErr String) (hraw : ∀ e, raw = .error e → e = .interpolationError)
    (e : PyErr) (h : o.convert c sec raw = .error e) (hc : caughtInput e = true) :
    e = .optionError o.key sec ∧ ∃ t, o.keytype = .base t := by
  cases raw with
  | error e =>
    have he := hraw e rfl
    subst he
    unfold InputOption.convert at h
    split at h <;> cases h <;> cases hc
  | ok r =>
    unfold InputOption.convert at h
    split at h
    · cases h
    · rw [ok_bind] at h
      split at h <;> cases h
      exact ⟨rfl, _, by assumption⟩
    · rw [ok_bind] at h
      split at h <;> cases h
      exact ⟨rfl, _, by assumption⟩
    · rw [ok_bind] at h
      split at h <;> cases h
      exact ⟨rfl, _, by assumption⟩
    · rw [ok_bind] at h
      rename_i t _
      cases hm : (pySplit r).mapM (callType c t) with
      | error e =>
        rw [hm] at h
        obtain ⟨x, _, hx⟩ := mapM_blame _ _ _ hm
        have := callType_error c _ _ _ hx
        subst this
        cases h
        cases hc
      | ok l =>
        rw [hm] at h
        cases h

theorem parse_blame (o : InputOption F) (s : Section) (hs : PlainSection s) (ho : CondOk o) (e : PyErr)
    (h : o.parse c s = .error e) (hc : caughtInput e = true) : e = .optionError o.key s.name := by
  unfold InputOption.parse at h
  split at h
  · split at h
    · cases h; rfl
    · cases h
  · rename_i raw hg
    split at h
    · rename_i e he
      cases h
      exact (convert_blame c o s.name raw (fun e h => hs _ e (by rw [hg, h])) _ he hc).1
    · rename_i v hv
      split at h
      · cases h
      · rename_i f hf
        split at h
        · rename_i e he
          have := ho f hf v e he
          subst this
          cases h
          cases hc
        · cases h
        · cases h; rfl

/-- A list option without condition that is in the section raises no exception that is caught. -/
theorem list_quiet (key : String) (t : BaseType) (b : Bool) (s : Section) (hs : PlainSection s) (hg : s.entries.get? key ≠ none) (e : PyErr)
    (h : (optList key t b : InputOption F).parse c s = .error e) : caughtInput e = false := by
  by_contra hc
  unfold InputOption.parse at h
  split at h
  · rename_i hn
    exact hg hn
  · rename_i raw hg
    split at h
    · rename_i e he
      cases h
      obtain ⟨_, t, ht⟩ := convert_blame c _ s.name raw (fun e h => hs _ e (by rw [hg, h])) _ he (by simpa using hc)
      cases ht
    · cases h

theorem parseLoop_blame (s : Section) (e : PyErr) : ∀ (options : List (InputOption F)) (d : Dict (OptVal F)),
    parseLoop c s options d = .error e → ∃ o ∈ options, o.parse c s = .error e
  | [], d, h => by cases h
  | o :: os, d, h => by
    rw [parseLoop] at h
    split at h
    · rename_i e' he
      cases h
      exact ⟨o, by simp, he⟩
    · obtain ⟨o', h1, h2⟩ := parseLoop_blame s e os _ h
      exact ⟨o', by simp [h1], h2⟩

/-- An exception that is caught names an option of the section that violates its rule. -/
def Blames (l : Rules) (s : Section) (e : PyErr) : Prop :=
  caughtInput e = true → ∃ k, e = .optionError k s.name ∧ ∃ r, (k, r) ∈ l ∧ ¬ r s

theorem blames_quiet {l : Rules} {s : Section} {e : PyErr} (h : caughtInput e = false) : Blames l s e :=
  fun hc => by rw [h] at hc; cases hc

/-- The rules cover the option: it is parsed if its rule is obeyed. -/
def Covered (s : Section) (l : Rules) (o : InputOption F) : Prop :=
  CondOk o ∧ ((∃ r, (o.key, r) ∈ l ∧ (r s → ∃ v, o.parse c s = .ok v)) ∨ ∀ e, o.parse c s = .error e → caughtInput e = false)

theorem option_blame {s : Section} (hs : PlainSection s) {l : Rules} {o : InputOption F} (hl : Covered c s l o) {e : PyErr}
    (he : o.parse c s = .error e) : Blames l s e := by
  intro hc
  have h1 := parse_blame c o s hs hl.1 e he hc
  subst h1
  rcases hl.2 with ⟨r, hr, hr'⟩ | hq
  · refine ⟨_, rfl, r, hr, fun hr'' => ?_⟩
    obtain ⟨v, hv⟩ := hr' hr''
    rw [hv] at he
    cases he
  · exact blames_quiet (hq _ he) hc

theorem section_blame (s : Section) (hs : PlainSection s) (l : Rules) (options : List (InputOption F))
    (hl : ∀ o ∈ options, Covered c s l o) (e : PyErr) (h : parseSection c s options = .error e) : Blames l s e := by
  obtain ⟨o, ho, he⟩ := parseLoop_blame c s _ options [] h
  exact option_blame c hs (hl o ho) he

/-! ### Conditions -/

theorem condOk_none {o : InputOption F} (h : o.condition = none) : CondOk o := by
  intro f hf
  rw [h] at hf
  cases hf

theorem cmpNum_error (f : F → Bool) (g : Int → Bool) (v : BaseVal F) (e : PyErr) (h : cmpNum f g v = .error e) : e = .typeError := by
  cases v <;> cases h
  rfl

theorem allM_error {α : Type} (f : α → Except PyErr Bool) (e : PyErr) : ∀ l : List α, allM f l = .error e → ∃ a ∈ l, f a = .error e
  | [], h => by cases h
  | a :: l, h => by
    rw [allM] at h
    split at h
    · rename_i e' he
      cases h
      exact ⟨a, by simp, he⟩
    · cases h
    · obtain ⟨b, hb, hb'⟩ := allM_error f e l h
      exact ⟨b, by simp [hb], hb'⟩

variable [Zero F] [LT F] [DecidableLT F]

theorem condOk_positive {o : InputOption F} (h : o.condition = some positive) : CondOk o := by
  intro f hf v e he
  rw [h] at hf
  cases hf
  cases v with
  | base v => exact cmpNum_error _ _ v e he
  | none => cases he; rfl
  | list l => cases he; rfl

omit [LT F] [DecidableLT F] in
theorem condOk_nonneg [LE F] [DecidableLE F] {o : InputOption F} (h : o.condition = some positiveOrZero) : CondOk o := by
  intro f hf v e he
  rw [h] at hf
  cases hf
  cases v with
  | base v => exact cmpNum_error _ _ v e he
  | none => cases he; rfl
  | list l => cases he; rfl

theorem condOk_all {o : InputOption F} (h : o.condition = some allPositive) : CondOk o := by
  intro f hf v e he
  rw [h] at hf
  cases hf
  unfold allPositive at he
  split at he
  · obtain ⟨a, _, ha⟩ := allM_error _ _ _ he
    exact cmpNum_error _ _ a e ha
  · split at he <;> cases he
    rfl
  · cases he; rfl

omit [Zero F] [LT F] [DecidableLT F] in
theorem condOk_dim {o : InputOption F} (h : o.condition = some atMost3dim) : CondOk o := by
  intro f hf v e he
  rw [h] at hf
  cases hf
  unfold atMost3dim at he
  split at he <;> cases he
  rfl

omit [Zero F] [LT F] [DecidableLT F] in
theorem condOk_oneOf {o : InputOption F} {l : List String} (h : o.condition = some (oneOf l)) : CondOk o := by
  intro f hf v e he
  rw [h] at hf
  cases hf
  unfold oneOf at he
  split at he <;> cases he

omit [Zero F] [LT F] [DecidableLT F] in
/-- Text options raise no exception that is caught if they are not compulsory. -/
theorem str_quiet (key : String) (s : Section) (hs : PlainSection s) (d : OptVal F) (e : PyErr)
    (h : (opt key .str false none d : InputOption F).parse c s = .error e) : caughtInput e = false := by
  unfold InputOption.parse at h
  split at h
  · cases h
  · rename_i raw hg
    split at h
    · rename_i e he
      cases h
      cases raw with
      | error e =>
        have := hs _ e hg
        subst this
        cases he
        rfl
      | ok r => cases he
    · cases h

end

end Bdld
