import Verif.Spec.InputParser
import Verif.Lemmas.Except
import Std.Data.String.ToNat
import Mathlib.Data.List.Nodup
import Mathlib.Data.List.Perm.Subperm

/-
Lemmas about dictionaries and the parser.
-/

namespace Bdld

theorem Dict.get?_none {V : Type} (d : Dict V) (k : String) : d.get? k = none ↔ ¬ Spec.HasKey d k := by
  unfold Dict.get? Spec.HasKey
  induction d with
  | nil => simp
  | cons p d ih =>
    obtain ⟨a, v⟩ := p
    rw [List.lookup_cons]
    by_cases h : k = a
    · subst h; simp
    · have : (k == a) = false := by simpa using h
      rw [this]
      simp only [ih, List.mem_cons, Prod.mk.injEq, h, false_and, false_or]

theorem Dict.get?_some {V : Type} (d : Dict V) (k : String) (v : V) (h : d.get? k = some v) :
    (k, v) ∈ d := by
  unfold Dict.get? at h
  induction d with
  | nil => simp at h
  | cons p d ih =>
    obtain ⟨a, w⟩ := p
    rw [List.lookup_cons] at h
    by_cases e : k = a
    · subst e; simp at h; simp [h]
    · have : (k == a) = false := by simpa using e
      rw [this] at h
      exact List.mem_cons_of_mem _ (ih h)

theorem Dict.get?_set {V : Type} (d : Dict V) (k k' : String) (v : V) :
    (d.set k v).get? k' = if k' = k then some v else d.get? k' := by
  unfold Dict.get?
  induction d with
  | nil =>
    simp only [Dict.set, List.lookup_cons, List.lookup_nil]
    by_cases e : k' = k
    · subst e; simp
    · have : (k' == k) = false := by simpa using e
      rw [this, if_neg e]
  | cons p d ih =>
    obtain ⟨a, w⟩ := p
    unfold Dict.set
    by_cases e : a = k
    · subst e
      rw [if_pos rfl, List.lookup_cons, List.lookup_cons]
      by_cases e' : k' = a
      · subst e'; simp only [beq_self_eq_true, if_true]
      · have : (k' == a) = false := by simpa using e'
        rw [this, if_neg e']
    · rw [if_neg e, List.lookup_cons, List.lookup_cons, ih]
      by_cases e' : k' = a
      · subst e'
        simp only [if_neg e, beq_self_eq_true]
      · have : (k' == a) = false := by simpa using e'
        rw [this]

theorem parseLoop_spec {F : Type} (c : Conv F) (s : Section) (options : List (InputOption F))
    (d0 d : Dict (OptVal F)) (h : parseLoop c s options d0 = .ok d) :
    (∀ o ∈ options, ∃ v, o.parse c s = .ok v) ∧
    (∀ k, (∀ o ∈ options, o.key ≠ k) → d.get? k = d0.get? k) ∧
    ((options.map (·.key)).Nodup → ∀ o ∈ options, ∃ v, o.parse c s = .ok v ∧ d.get? o.key = some v) := by
  induction options generalizing d0 with
  | nil =>
    cases h
    exact ⟨by simp, fun _ _ => rfl, by simp⟩
  | cons o os ih =>
    unfold parseLoop at h
    cases hp : o.parse c s with
    | error e => rw [hp] at h; cases h
    | ok v =>
      rw [hp] at h
      obtain ⟨h1, h2, h3⟩ := ih _ h
      refine ⟨?_, ?_, ?_⟩
      · intro o' ho'
        rw [List.mem_cons] at ho'
        rcases ho' with rfl | ho'
        · exact ⟨v, hp⟩
        · exact h1 o' ho'
      · intro k hk
        rw [h2 k (fun o' ho' => hk o' (by simp [ho'])), Dict.get?_set,
          if_neg (fun e => hk o (by simp) e.symm)]
      · intro hn o' ho'
        rw [List.map_cons, List.nodup_cons] at hn
        rw [List.mem_cons] at ho'
        rcases ho' with rfl | ho'
        · refine ⟨v, hp, ?_⟩
          rw [h2 o'.key (fun o2 h2 e => hn.1 (List.mem_map.mpr ⟨o2, h2, e⟩)), Dict.get?_set, if_pos rfl]
        · exact h3 hn.2 o' ho'

theorem parseLoop_append {F : Type} (c : Conv F) (s : Section) (l1 : List (InputOption F))
    (o : InputOption F) (l2 : List (InputOption F)) (d : Dict (OptVal F)) (e : PyErr)
    (h1 : ∀ o ∈ l1, ∃ v, o.parse c s = .ok v) (h2 : o.parse c s = .error e) :
    parseLoop c s (l1 ++ o :: l2) d = .error e := by
  induction l1 generalizing d with
  | nil => simp [parseLoop, h2]
  | cons a l1 ih =>
    obtain ⟨v, hv⟩ := h1 a (by simp)
    rw [List.cons_append, parseLoop, hv]
    exact ih _ (fun o ho => h1 o (by simp [ho]))

theorem parseLoop_error {F : Type} (c : Conv F) (s : Section) (options : List (InputOption F))
    (d : Dict (OptVal F)) (e : PyErr) (h : parseLoop c s options d = .error e) :
    ∃ l1 o l2, options = l1 ++ o :: l2 ∧ (∀ o ∈ l1, ∃ v, o.parse c s = .ok v) ∧ o.parse c s = .error e := by
  induction options generalizing d with
  | nil => cases h
  | cons a os ih =>
    unfold parseLoop at h
    cases hp : a.parse c s with
    | error e' =>
      rw [hp] at h
      cases h
      exact ⟨[], a, os, rfl, by simp, hp⟩
    | ok v =>
      rw [hp] at h
      obtain ⟨l1, o, l2, e1, e2, e3⟩ := ih _ h
      refine ⟨a :: l1, o, l2, by rw [e1]; rfl, ?_, e3⟩
      intro o' ho'
      rw [List.mem_cons] at ho'
      rcases ho' with rfl | ho'
      · exact ⟨v, hp⟩
      · exact e2 o' ho'

theorem parseLoop_congr {F : Type} (c : Conv F) (s s' : Section) (options : List (InputOption F))
    (d : Dict (OptVal F)) (h : ∀ o ∈ options, o.parse c s = o.parse c s') :
    parseLoop c s options d = parseLoop c s' options d := by
  induction options generalizing d with
  | nil => rfl
  | cons a os ih =>
    unfold parseLoop
    rw [h a (by simp)]
    cases a.parse c s' with
    | error e => rfl
    | ok v => exact ih _ (fun o ho => h o (by simp [ho]))

theorem numKey_inj (pre suf : String) (m n : Nat) (h : numKey pre suf m = numKey pre suf n) : m = n := by
  unfold numKey at h
  exact Nat.repr_injective ((String.append_right_inj pre).mp ((String.append_left_inj suf).mp h))

/-- Outcome of the loop in terms of the keys found one after the other. -/
theorem numberedLoop_ok {V : Type} (get : String → Option (Except PyErr V)) (pre suf : String)
    (fuel counter : Nat) (res vals : List V)
    (h1 : ∀ i < vals.length, get (numKey pre suf (counter + i)) = (vals[i]?).map .ok)
    (h2 : get (numKey pre suf (counter + vals.length)) = none) (hf : vals.length < fuel) :
    numberedLoop get pre suf fuel counter res = .ok (res ++ vals) := by
  induction vals generalizing fuel counter res with
  | nil =>
    match fuel, hf with
    | fuel + 1, _ =>
      unfold numberedLoop
      rw [show get (numKey pre suf counter) = none from h2, List.append_nil]
  | cons v vals ih =>
    match fuel, hf with
    | fuel + 1, hf =>
      unfold numberedLoop
      have h0 := h1 0 (by simp)
      simp only [Nat.add_zero, List.getElem?_cons_zero, Option.map_some] at h0
      rw [h0]
      simp only
      rw [ih fuel (counter + 1) (res ++ [v]) ?_ ?_ (by simpa using hf), List.append_assoc]
      · rfl
      · intro i hi
        have := h1 (i + 1) (by simpa using hi)
        rw [List.getElem?_cons_succ] at this
        rw [← this]
        congr 2
        omega
      · rw [← h2]
        congr 2
        simp only [List.length_cons]
        omega

/-- If an error is met first, it is the result. -/
theorem numberedLoop_err {V : Type} (get : String → Option (Except PyErr V)) (pre suf : String)
    (fuel counter : Nat) (res vals : List V) (e : PyErr)
    (h1 : ∀ i < vals.length, get (numKey pre suf (counter + i)) = (vals[i]?).map .ok)
    (h2 : get (numKey pre suf (counter + vals.length)) = some (.error e)) (hf : vals.length < fuel) :
    numberedLoop get pre suf fuel counter res = .error e := by
  induction vals generalizing fuel counter res with
  | nil =>
    match fuel, hf with
    | fuel + 1, _ =>
      unfold numberedLoop
      rw [show get (numKey pre suf counter) = some (.error e) from h2]
  | cons v vals ih =>
    match fuel, hf with
    | fuel + 1, hf =>
      unfold numberedLoop
      have h0 := h1 0 (by simp)
      simp only [Nat.add_zero, List.getElem?_cons_zero, Option.map_some] at h0
      rw [h0]
      simp only
      refine ih fuel (counter + 1) (res ++ [v]) ?_ ?_ (by simpa using hf)
      · intro i hi
        have := h1 (i + 1) (by simpa using hi)
        rw [List.getElem?_cons_succ] at this
        rw [← this]
        congr 2
        omega
      · rw [← h2]
        congr 2
        simp only [List.length_cons]
        omega

/-- Every function with finitely many keys has a first missing or failing key. -/
theorem numbered_exists {V : Type} (d : Dict (Except PyErr V)) (pre suf : String) :
    ∃ vals : List V, vals.length ≤ d.length ∧
      (∀ i < vals.length, d.get? (numKey pre suf (1 + i)) = (vals[i]?).map .ok) ∧
      (d.get? (numKey pre suf (1 + vals.length)) = none ∨
        ∃ e, d.get? (numKey pre suf (1 + vals.length)) = some (.error e)) := by
  -- otherwise more values than entries could be found
  by_contra hc
  have key : ∀ n, n ≤ d.length + 1 → ∃ vals : List V, vals.length = n ∧
      (∀ i < vals.length, d.get? (numKey pre suf (1 + i)) = (vals[i]?).map .ok) := by
    intro n
    induction n with
    | zero => intro _; exact ⟨[], rfl, by simp⟩
    | succ n ih =>
      intro hn
      obtain ⟨vals, hl, hv⟩ := ih (by omega)
      cases hg : d.get? (numKey pre suf (1 + vals.length)) with
      | none => exact (hc ⟨vals, by omega, hv, .inl hg⟩).elim
      | some r =>
        cases r with
        | error e => exact (hc ⟨vals, by omega, hv, .inr ⟨e, hg⟩⟩).elim
        | ok v =>
          refine ⟨vals ++ [v], by simp [hl], ?_⟩
          intro i hi
          rw [List.length_append, List.length_singleton] at hi
          rcases Nat.lt_or_ge i vals.length with h | h
          · rw [hv i h, List.getElem?_append_left h]
          · have : i = vals.length := by omega
            subst this
            rw [hg]
            simp
  obtain ⟨vals, hl, hv⟩ := key (d.length + 1) (Nat.le_refl _)
  have hn : ((List.range (d.length + 1)).map (fun i => numKey pre suf (1 + i))).Nodup := by
    refine List.Nodup.map ?_ List.nodup_range
    intro a b h
    have := numKey_inj pre suf _ _ h
    omega
  have hs : ((List.range (d.length + 1)).map (fun i => numKey pre suf (1 + i))) ⊆ d.map Prod.fst := by
    intro k hk
    obtain ⟨i, hi, rfl⟩ := List.mem_map.mp hk
    rw [List.mem_range] at hi
    have h := hv i (by omega)
    rw [List.getElem?_eq_getElem (by omega), Option.map_some] at h
    exact List.mem_map.mpr ⟨_, Dict.get?_some d _ _ h, rfl⟩
  have := (hn.subperm hs).length_le
  simp only [List.length_map, List.length_range] at this
  omega

end Bdld
