import Verif.Model.Histogram
import Verif.Spec.Bins
import Mathlib.Order.Basic

/-
Helper lemmas: the bin found by `searchsorted` is the bin of the specification.
-/

namespace Bdld
open Spec

theorem searchRight_spec {F} [LinearOrder F] (x : F) (edges : List F) (h : edges.Pairwise (· < ·)) (i : Nat) :
    i < searchRight edges x ↔ ∃ e, edges[i]? = some e ∧ e ≤ x := by
  unfold searchRight
  induction edges generalizing i with
  | nil => simp
  | cons a l ih =>
    rw [List.pairwise_cons] at h
    by_cases ha : a ≤ x
    · rw [List.countP_cons_of_pos (by simpa using ha)]
      cases i with
      | zero => simp [ha]
      | succ i => simpa using ih h.2 i
    · have h0 : List.countP (fun e => decide (e ≤ x)) l = 0 := by
        rw [List.countP_eq_zero]
        intro b hb
        have := h.1 b hb
        simp only [decide_eq_true_eq, not_le] at ha ⊢
        exact lt_trans ha this
      rw [List.countP_cons_of_neg (by simpa using ha), h0]
      constructor
      · intro h; omega
      · rintro ⟨e, he, hx⟩
        exfalso
        cases i with
        | zero => simp at he; subst he; exact ha hx
        | succ i =>
          have hm : e ∈ l := List.mem_of_getElem? (by simpa using he)
          exact ha (le_trans (le_of_lt (h.1 e hm)) hx)

theorem searchRight_le {F} [LinearOrder F] (x : F) (edges : List F) : searchRight edges x ≤ edges.length :=
  List.countP_le_length

theorem getLast?_eq_some_iff' {α} (l : List α) (x : α) :
    l.getLast? = some x ↔ l[l.length - 1]? = some x ∧ 0 < l.length := by
  rw [List.getLast?_eq_getElem?]
  constructor
  · intro h; refine ⟨h, ?_⟩
    cases l with
    | nil => simp at h
    | cons a l => simp
  · exact fun h => h.1

theorem binIndex_iff {F} [LinearOrder F] (edges : List F) (hg : GoodEdges edges) (x : F) (i : Nat) :
    binIndex edges x = some i ↔ InBin1 edges i x := by
  obtain ⟨hlen, hp⟩ := hg
  have spec := searchRight_spec x edges hp
  have hle := searchRight_le x edges
  have hget : ∀ j, j < edges.length → ∃ e, edges[j]? = some e := fun j hj =>
    ⟨edges[j], List.getElem?_eq_getElem hj⟩
  have hmono : ∀ (j k : Nat) (a b : F), edges[j]? = some a → edges[k]? = some b → j < k → a < b := by
    intro j k a b ha hb hjk
    rw [List.getElem?_eq_some_iff] at ha hb
    obtain ⟨hj, rfl⟩ := ha
    obtain ⟨hk, rfl⟩ := hb
    exact List.pairwise_iff_getElem.1 hp j k hj hk hjk
  have hlast : edges.getLast? = some x → searchRight edges x = edges.length := by
    intro h
    obtain ⟨h1, h2⟩ := (getLast?_eq_some_iff' _ _).1 h
    have := (spec (edges.length - 1)).2 ⟨x, h1, le_refl _⟩
    omega
  unfold binIndex
  simp only
  constructor
  · intro h
    by_cases hl : edges.getLast? = some x
    · rw [if_pos hl, hlast hl] at h
      rw [if_pos (by omega)] at h
      injection h with h
      obtain ⟨lo, hlo⟩ := hget i (by omega)
      obtain ⟨h1, h2⟩ := (getLast?_eq_some_iff' _ _).1 hl
      have he : i + 1 = edges.length - 1 := by omega
      refine ⟨lo, x, hlo, by rw [he]; exact h1, ?_, Or.inr ⟨by omega, rfl⟩⟩
      exact le_of_lt (hmono i (i + 1) lo x hlo (by rw [he]; exact h1) (by omega))
    · rw [if_neg hl] at h
      by_cases hc : 1 ≤ searchRight edges x ∧ searchRight edges x + 1 ≤ edges.length
      · rw [if_pos hc] at h
        injection h with h
        obtain ⟨lo, hlo, hlo2⟩ := (spec i).1 (by omega)
        obtain ⟨hi, hhi⟩ := hget (i + 1) (by omega)
        refine ⟨lo, hi, hlo, hhi, hlo2, Or.inl ?_⟩
        by_contra hcon
        have := (spec (i + 1)).2 ⟨hi, hhi, not_lt.1 hcon⟩
        omega
      · rw [if_neg hc] at h; cases h
  · rintro ⟨lo, hi, hlo, hhi, h1, h2⟩
    have hi1 : i + 1 < edges.length := by
      rw [List.getElem?_eq_some_iff] at hhi; exact hhi.1
    have hgt : i < searchRight edges x := (spec i).2 ⟨lo, hlo, h1⟩
    rcases h2 with h2 | ⟨h2, h3⟩
    · have hn : ¬ i + 1 < searchRight edges x := by
        rw [spec]
        rintro ⟨e, he, hex⟩
        rw [hhi] at he; injection he with he; subst he
        exact absurd hex (not_le.2 h2)
      have hnl : edges.getLast? ≠ some x := by
        intro h; have := hlast h; omega
      rw [if_neg hnl, if_pos (by omega)]
      congr 1; omega
    · have hl : edges.getLast? = some x := by
        rw [getLast?_eq_some_iff']
        refine ⟨?_, by omega⟩
        rw [show edges.length - 1 = i + 1 by omega, hhi, h3]
      rw [if_pos hl, hlast hl, if_pos (by omega)]
      congr 1; omega

theorem binOf_iff {F} [LinearOrder F] (bins : List (List F)) (hg : ∀ e ∈ bins, GoodEdges e) (p : List F)
    (idx : List Nat) : binOf bins p = some idx ↔ InBin bins idx p := by
  induction bins generalizing p idx with
  | nil => cases p <;> cases idx <;> simp [binOf, InBin]
  | cons e es ih =>
    have h1 := binIndex_iff e (hg e (by simp))
    have h2 := ih (fun e he => hg e (by simp [he]))
    cases p with
    | nil => cases idx <;> simp [binOf, InBin]
    | cons x xs =>
      cases idx with
      | nil => 
        simp only [binOf, InBin, iff_false]
        cases binIndex e x <;> cases binOf es xs <;> simp
      | cons i is =>
        simp only [binOf, InBin]
        rw [← h1, ← h2]
        cases binIndex e x <;> cases binOf es xs <;> simp

theorem inRange1_iff {F} [LinearOrder F] (edges : List F) (hg : GoodEdges edges) (x : F) :
    InRange1 edges x ↔ ∃ i, binIndex edges x = some i := by
  obtain ⟨hlen, hp⟩ := hg
  have spec := searchRight_spec x edges hp
  have hle := searchRight_le x edges
  constructor
  · rintro ⟨lo, hi, h1, h2, h3, h4⟩
    have h0 : edges[0]? = some lo := by rw [← List.head?_eq_getElem?]; exact h1
    have hpos : 0 < searchRight edges x := (spec 0).2 ⟨lo, h0, h3⟩
    unfold binIndex
    by_cases hl : edges.getLast? = some x
    · simp only [if_pos hl]
      obtain ⟨h1, h2⟩ := (getLast?_eq_some_iff' _ _).1 hl
      have := (spec (edges.length - 1)).2 ⟨x, h1, le_refl _⟩
      exact ⟨_, if_pos (by omega)⟩
    · simp only [if_neg hl]
      have hlt : x < hi := lt_of_le_of_ne h4 (by rintro rfl; exact hl h2)
      have : ¬ edges.length - 1 < searchRight edges x := by
        rw [spec]
        rintro ⟨e, he, hex⟩
        rw [List.getLast?_eq_getElem?, he] at h2
        injection h2 with h2; subst h2
        exact absurd hex (not_le.2 hlt)
      exact ⟨_, if_pos (by omega)⟩
  · rintro ⟨i, hi⟩
    rw [binIndex_iff edges ⟨hlen, hp⟩] at hi
    obtain ⟨lo, hi, hlo, hhi, h1, h2⟩ := hi
    have hx : x ≤ hi := by
      rcases h2 with h2 | ⟨_, h2⟩
      · exact le_of_lt h2
      · exact le_of_eq h2
    have hmono : ∀ (j k : Nat) (a b : F), edges[j]? = some a → edges[k]? = some b → j ≤ k → a ≤ b := by
      intro j k a b ha hb hjk
      rcases Nat.eq_or_lt_of_le hjk with rfl | hjk
      · rw [ha] at hb; injection hb with hb; exact le_of_eq hb
      · rw [List.getElem?_eq_some_iff] at ha hb
        obtain ⟨hj, rfl⟩ := ha
        obtain ⟨hk, rfl⟩ := hb
        exact le_of_lt (List.pairwise_iff_getElem.1 hp j k hj hk hjk)
    have hi1 : i + 1 < edges.length := by
      rw [List.getElem?_eq_some_iff] at hhi; exact hhi.1
    refine ⟨edges[0], edges[edges.length - 1], ?_, ?_, ?_, ?_⟩
    · rw [List.head?_eq_getElem?]; exact List.getElem?_eq_getElem (by omega)
    · rw [List.getLast?_eq_getElem?]; exact List.getElem?_eq_getElem (by omega)
    · exact le_trans (hmono 0 i _ _ (List.getElem?_eq_getElem (by omega)) hlo (by omega)) h1
    · exact le_trans hx (hmono (i + 1) (edges.length - 1) _ _ hhi (List.getElem?_eq_getElem (by omega)) (by omega))

theorem inRange_iff {F} [LinearOrder F] (bins : List (List F)) (hg : ∀ e ∈ bins, GoodEdges e) (p : List F) :
    InRange bins p ↔ ∃ idx, binOf bins p = some idx := by
  induction bins generalizing p with
  | nil => cases p <;> simp [binOf, InRange]
  | cons e es ih =>
    have h1 := inRange1_iff e (hg e (by simp))
    have h2 := ih (fun e he => hg e (by simp [he]))
    cases p with
    | nil => simp [binOf, InRange]
    | cons x xs =>
      simp only [binOf, InRange]
      rw [h1, h2]
      cases binIndex e x <;> cases binOf es xs <;> simp

end Bdld
