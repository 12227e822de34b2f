import Verif.Model.ConfigText
import Verif.Spec.ConfigText
import Verif.Lemmas.InputParser
import Verif.Props.Interpolation

/-
Lemmas about the text of input files.
-/

namespace Bdld
open Spec

/-! ### Characters -/

theorem visible_space {c : Char} (h : Visible c) : pySpace c = false := by
  unfold Visible at h
  simp only [pySpace, Bool.or_eq_false_iff, Bool.and_eq_false_iff, decide_eq_false_iff_not, beq_eq_false_iff_ne]
  omega

theorem white_space {l : List Char} (h : White l) : ∀ c ∈ l, pySpace c = true := by
  intro c hc
  rcases h c hc with rfl | rfl <;> decide

theorem dropWhile_white {s l : List Char} (h : White s) : (s ++ l).dropWhile pySpace = l.dropWhile pySpace := by
  rw [List.dropWhile_append_of_pos (white_space h)]

theorem white_reverse {s : List Char} (h : White s) : White s.reverse := fun c hc => h c (List.mem_reverse.1 hc)

theorem lstrip_white {s l : List Char} (h : White s) : lstrip (s ++ l) = lstrip l := dropWhile_white h

theorem rstrip_white {s l : List Char} (h : White s) : rstrip (l ++ s) = rstrip l := by
  rw [rstrip, List.reverse_append, dropWhile_white (white_reverse h), rstrip]

theorem lstrip_cons {c : Char} {l : List Char} (h : pySpace c = false) : lstrip (c :: l) = c :: l := by
  rw [lstrip, List.dropWhile_cons_of_neg (by simp [h])]

theorem rstrip_concat {c : Char} {l : List Char} (h : pySpace c = false) : rstrip (l ++ [c]) = l ++ [c] := by
  rw [rstrip, List.reverse_append, List.reverse_singleton, List.singleton_append, List.dropWhile_cons_of_neg (by simp [h]),
    List.reverse_cons, List.reverse_reverse]

theorem lstrip_trimmed {l r : List Char} (h : Trimmed l) (hne : l ≠ []) : lstrip (l ++ r) = l ++ r := by
  cases l with
  | nil => exact absurd rfl hne
  | cons c l => exact lstrip_cons (visible_space (h.1 c rfl))

theorem rstrip_trimmed {l : List Char} (h : Trimmed l) : rstrip l = l := by
  rcases List.eq_nil_or_concat l with rfl | ⟨l', c, rfl⟩
  · rfl
  · rw [List.concat_eq_append] at h ⊢
    exact rstrip_concat (visible_space (h.2 c (by simp)))

theorem strip_trimmed {s l s' : List Char} (h : White s) (h' : White s') (hl : Trimmed l) : strip (s ++ l ++ s') = l := by
  rw [strip, List.append_assoc, lstrip_white h]
  by_cases hne : l = []
  · subst hne
    have : lstrip s' = [] := by
      have := lstrip_white (l := []) h'
      rw [List.append_nil] at this
      rw [this]
      rfl
    rw [List.nil_append, this]
    rfl
  · rw [lstrip_trimmed hl hne, rstrip_white h', rstrip_trimmed hl]

theorem strip_white {s : List Char} (h : White s) : strip s = [] := by
  have := strip_trimmed (l := []) h (s' := []) (by simp [White]) (by simp [Trimmed])
  simpa using this

theorem rstrip_cons {c : Char} (l : List Char) (h : pySpace c = false) : ∃ t, rstrip (c :: l) = c :: t := by
  rw [rstrip, List.reverse_cons, List.dropWhile_append]
  split
  · exact ⟨[], by simp [List.dropWhile_cons_of_neg, h]⟩
  · exact ⟨_, by rw [List.reverse_append]; rfl⟩

theorem takeWhile_trimmed {l r : List Char} (h : Trimmed l) (hne : l ≠ []) : (l ++ r).takeWhile pySpace = [] := by
  cases l with
  | nil => exact absurd rfl hne
  | cons c l => rw [List.cons_append, List.takeWhile_cons_of_neg (by simp [visible_space (h.1 c rfl)])]

/-! ### Dictionaries -/

theorem Dict.set_map {V W : Type} (f : V → W) (d : Dict V) (k : String) (v : V) :
    (d.set k v).map (fun p => (p.1, f p.2)) = Dict.set (d.map fun p => (p.1, f p.2)) k (f v) := by
  induction d with
  | nil => rfl
  | cons p d ih =>
    obtain ⟨a, w⟩ := p
    simp only [Dict.set, List.map_cons]
    split
    · rfl
    · rw [List.map_cons, ih]

theorem Dict.set_self {V : Type} (d : Dict V) (k : String) (v : V) (h : d.get? k = some v) : d.set k v = d := by
  induction d with
  | nil => cases h
  | cons p d ih =>
    obtain ⟨a, w⟩ := p
    simp only [Dict.set]
    unfold Dict.get? at h
    rw [List.lookup_cons] at h
    split
    · rename_i e
      subst e
      simp only [beq_self_eq_true] at h
      rw [Option.some.inj h]
    · rename_i e
      have : (k == a) = false := by simpa using Ne.symm e
      rw [this] at h
      rw [ih h]

theorem Dict.set_mid {V : Type} (A B : Dict V) (k : String) (v w : V) (h : ∀ p ∈ A, p.1 ≠ k) :
    Dict.set (A ++ (k, v) :: B) k w = A ++ (k, w) :: B := by
  induction A with
  | nil => simp [Dict.set]
  | cons p A ih =>
    obtain ⟨a, x⟩ := p
    rw [List.cons_append, Dict.set, if_neg (h (a, x) List.mem_cons_self), ih fun q hq => h q (List.mem_cons_of_mem _ hq)]
    rfl

theorem Dict.get?_mid {V : Type} (A B : Dict V) (k : String) (v : V) (h : ∀ p ∈ A, p.1 ≠ k) :
    Dict.get? (A ++ (k, v) :: B) k = some v := by
  unfold Dict.get?
  induction A with
  | nil => simp
  | cons p A ih =>
    obtain ⟨a, x⟩ := p
    have : (k == a) = false := by simpa using Ne.symm (h (a, x) List.mem_cons_self)
    rw [List.cons_append, List.lookup_cons, this]
    exact ih fun q hq => h q (List.mem_cons_of_mem _ hq)

theorem Dict.set_fresh {V : Type} (d : Dict V) (k : String) (v : V) (h : ∀ p ∈ d, p.1 ≠ k) : d.set k v = d ++ [(k, v)] := by
  induction d with
  | nil => rfl
  | cons p d ih =>
    obtain ⟨a, w⟩ := p
    rw [Dict.set, if_neg (h (a, w) List.mem_cons_self), ih (fun q hq => h q (List.mem_cons_of_mem _ hq))]
    rfl

theorem Dict.get?_fresh {V : Type} (d : Dict V) (k : String) (h : ∀ p ∈ d, p.1 ≠ k) : d.get? k = none := by
  rw [Dict.get?_none]
  rintro ⟨v, hv⟩
  exact h _ hv rfl

/-- With distinct keys, the value is that of the only entry. -/
theorem Dict.get?_nodup {V : Type} (d : Dict V) (hn : (d.map (·.1)).Nodup) (k : String) (v : V) : d.get? k = some v ↔ (k, v) ∈ d := by
  refine ⟨Dict.get?_some d k v, fun h => ?_⟩
  obtain ⟨A, B, rfl⟩ := List.append_of_mem h
  refine Dict.get?_mid A B k v fun p hp e => ?_
  rw [List.map_append, List.nodup_append] at hn
  exact hn.2.2 p.1 (List.mem_map_of_mem hp) k (by simp) e

/-! ### States of the reader -/

/-- Values of the options read so far. -/
def cleaned (d : Dict (List (List Char))) : Dict String := d.map fun p => (p.1, joinLines p.2)

/-- Sections read so far. -/
def ReadState.view (st : ReadState) : Dict (Dict String) := st.sections.map fun p => (p.1, cleaned p.2)

/-- The current section and option exist. -/
structure ReadState.Fine (st : ReadState) : Prop where
  cur : ∀ sec, st.cur = some sec → ∃ d, st.sections.get? sec = some d ∧ ∀ key, st.opt = some key → ∃ v, d.get? key = some v

theorem view_get (st : ReadState) (sec : String) : st.view.get? sec = (st.sections.get? sec).map cleaned :=
  get?_map cleaned st.sections sec

theorem cleaned_get (d : Dict (List (List Char))) (k : String) : (cleaned d).get? k = (d.get? k).map joinLines :=
  get?_map joinLines d k

theorem joinLines_blank (ls : List (List Char)) : joinLines (ls ++ [[]]) = joinLines ls := by
  unfold joinLines
  congr 1
  cases ls with
  | nil => rfl
  | cons l ls =>
    have : ['\n'].intercalate ((l :: ls) ++ [[]]) = ['\n'].intercalate (l :: ls) ++ ['\n'] := by
      induction ls generalizing l with
      | nil => simp [List.intercalate]
      | cons m ls ih =>
        have h1 := ih m
        simp only [List.intercalate, List.cons_append, List.intersperse] at h1 ⊢
        simp only [List.flatten_cons, List.append_assoc, h1]
    rw [this, rstrip, List.reverse_append, List.reverse_singleton, List.singleton_append,
      List.dropWhile_cons_of_pos (by decide), rstrip]

theorem joinLines_one {v : List Char} (h : Trimmed v) : joinLines [v] = String.ofList v := by
  unfold joinLines
  congr 1
  have : ['\n'].intercalate [v] = v := by simp [List.intercalate]
  rw [this, rstrip_trimmed h]

end Bdld
