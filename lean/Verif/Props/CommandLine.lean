import Verif.Model.CommandLine
import Verif.Spec.CommandLine
import Mathlib.Data.List.TakeWhile

/-
C144: the command line.
-/

namespace Bdld

open Spec

/-! ### Single arguments -/

theorem lookup_cli (s : List Char) : cliOptions.lookup s =
    if s = ['-', 'h'] then some .help
    else if s = ['-', '-', 'h', 'e', 'l', 'p'] then some .help
    else if s = ['-', '-', 'l', 'o', 'g', '-', 'l', 'e', 'v', 'e', 'l'] then some .logLevel
    else none := by
  split_ifs with h1 h2 h3
  · rw [h1]; rfl
  · rw [h2]; rfl
  · rw [h3]; rfl
  · unfold cliOptions
    rw [List.lookup_cons, beq_eq_false_iff_ne.2 h1]
    simp only
    rw [List.lookup_cons, beq_eq_false_iff_ne.2 h2]
    simp only
    rw [List.lookup_cons, beq_eq_false_iff_ne.2 h3]
    rfl

/-- What is left if no option fits. -/
def cliRest (s : List Char) : Option (Option OptTuple) :=
  if negativeNumber s then some none else if ' ' ∈ s then some none else some (some ⟨none, false, false, none⟩)

theorem partitionEq_fst_short (c : Char) (r : List Char) (hc : c ≠ '=') :
    (partitionEq ('-' :: c :: r)).1 = '-' :: c :: r.takeWhile (· ≠ '=') := by
  simp [partitionEq, hc]

theorem opt_short (c : Char) (r : List Char) (h1 : c ≠ '-') (h2 : c ≠ 'h') :
    cliOptional ('-' :: c :: r) = cliRest ('-' :: c :: r) := by
  have hp : cliOptions.lookup (partitionEq ('-' :: c :: r)).1 = none := by
    rw [lookup_cli]
    by_cases hc : c = '='
    · subst hc
      simp [partitionEq]
    · rw [partitionEq_fst_short c r hc]
      simp [h1, h2]
  have ht : getOptionTuples ('-' :: c :: r) = [] := by
    unfold getOptionTuples
    split
    · next e => simp [h1] at e
    · next e =>
      simp only [List.cons.injEq, true_and] at e
      obtain ⟨rfl, rfl⟩ := e
      simp [cliOptions, Ne.symm h2, Ne.symm h1, h1, h2]
    · rfl
  unfold cliOptional
  rw [if_neg (by simp), lookup_cli]
  simp only [List.cons.injEq, true_and, h1, h2, false_and, if_false, List.length_cons, Nat.add_eq_right]
  rw [if_neg (by simp), hp, ht]
  cases (partitionEq ('-' :: c :: r)).2 <;> rfl

theorem opt_h (r : List Char) : ∃ t, cliOptional ('-' :: 'h' :: r) = some (some t) ∧ t.action = some .help := by
  unfold cliOptional
  rw [if_neg (by simp), lookup_cli]
  by_cases hr : r = []
  · subst hr
    exact ⟨_, rfl, rfl⟩
  · simp only [List.cons.injEq, true_and, hr, if_false, List.length_cons, Nat.add_eq_right]
    rw [if_neg (by simp), if_neg (by simp), if_neg (by simp)]
    have ht : getOptionTuples ('-' :: 'h' :: r) = [⟨some .help, true, false, some r⟩] := by
      unfold getOptionTuples
      simp [cliOptions]
    cases h1 : (partitionEq ('-' :: 'h' :: r)).2 with
    | none => simp only [ht]; exact ⟨_, rfl, rfl⟩
    | some v =>
      rw [lookup_cli]
      by_cases h2 : (partitionEq ('-' :: 'h' :: r)).1 = ['-', 'h']
      · rw [if_pos h2]
        exact ⟨_, rfl, rfl⟩
      · have h3 : (partitionEq ('-' :: 'h' :: r)).1 ≠ ['-', '-', 'h', 'e', 'l', 'p'] := by
          rw [partitionEq_fst_short _ _ (by decide)]; simp
        have h4 : (partitionEq ('-' :: 'h' :: r)).1 ≠ ['-', '-', 'l', 'o', 'g', '-', 'l', 'e', 'v', 'e', 'l'] := by
          rw [partitionEq_fst_short _ _ (by decide)]; simp
        rw [if_neg h2, if_neg h3, if_neg h4]
        simp only [ht]
        exact ⟨_, rfl, rfl⟩

/-- Prefix of one of the two long options. -/
theorem opt_long (q : List Char) (hq : q ≠ []) :
    let s := '-' :: '-' :: q
    (HelpName (partitionEq s).1 → ∃ t, cliOptional s = some (some t) ∧ t.action = some .help ∧
      t.explicit = (partitionEq s).2) ∧
    (LevelName (partitionEq s).1 → ∃ t, cliOptional s = some (some t) ∧ t.event = .level (partitionEq s).2) ∧
    ((partitionEq s).1 = ['-', '-'] → cliOptional s = none) ∧
    (¬ HelpName (partitionEq s).1 → ¬ LevelName (partitionEq s).1 → (partitionEq s).1 ≠ ['-', '-'] →
      cliOptional s = cliRest s) := by
  intro s
  have hp : (partitionEq s).1 = '-' :: '-' :: q.takeWhile (· ≠ '=') := partitionEq_fst_short '-' q (by decide)
  have e1 : "--help".toList = ['-', '-', 'h', 'e', 'l', 'p'] := rfl
  have e2 : "--log-level".toList = ['-', '-', 'l', 'o', 'g', '-', 'l', 'e', 'v', 'e', 'l'] := rfl
  have hH : HelpName (partitionEq s).1 ↔ q.takeWhile (· ≠ '=') ≠ [] ∧ q.takeWhile (· ≠ '=') <+: ['h', 'e', 'l', 'p'] := by
    rw [HelpName, hp, e1]
    simp [List.cons_prefix_cons, Nat.one_le_iff_ne_zero]
  have hL : LevelName (partitionEq s).1 ↔
      q.takeWhile (· ≠ '=') ≠ [] ∧ q.takeWhile (· ≠ '=') <+: ['l', 'o', 'g', '-', 'l', 'e', 'v', 'e', 'l'] := by
    rw [LevelName, hp, e2]
    simp [List.cons_prefix_cons, Nat.one_le_iff_ne_zero]
  have h0 : (partitionEq s).1 = ['-', '-'] ↔ q.takeWhile (· ≠ '=') = [] := by
    rw [hp]
    simp
  have ht : getOptionTuples s =
      (if q.takeWhile (· ≠ '=') <+: ['h', 'e', 'l', 'p'] then
        [⟨some .help, false, (partitionEq s).2.isSome, (partitionEq s).2⟩] else []) ++
      (if q.takeWhile (· ≠ '=') <+: ['l', 'o', 'g', '-', 'l', 'e', 'v', 'e', 'l'] then
        [⟨some .logLevel, false, (partitionEq s).2.isSome, (partitionEq s).2⟩] else []) := by
    change (cliOptions.filter (fun o => (partitionEq s).1.isPrefixOf o.1)).map _ = _
    rw [hp]
    unfold cliOptions
    simp only [List.filter_cons, List.filter_nil, List.isPrefixOf_iff_prefix, List.cons_prefix_cons, true_and,
      show ¬ '-' = 'h' by decide, false_and, if_false]
    split_ifs <;> simp
  have hexact : ∀ a : CliOption, cliOptions.lookup s = some a →
      (partitionEq s).2 = none ∧ ((a = .help ∧ q.takeWhile (· ≠ '=') = ['h', 'e', 'l', 'p']) ∨
        (a = .logLevel ∧ q.takeWhile (· ≠ '=') = ['l', 'o', 'g', '-', 'l', 'e', 'v', 'e', 'l'])) := by
    intro a ha
    rw [lookup_cli] at ha
    split_ifs at ha with h1 h2 h3
    · simp [s] at h1
    · cases ha
      have : q = ['h', 'e', 'l', 'p'] := by simpa [s] using h2
      subst this
      exact ⟨rfl, .inl ⟨rfl, rfl⟩⟩
    · cases ha
      have : q = ['l', 'o', 'g', '-', 'l', 'e', 'v', 'e', 'l'] := by simpa [s] using h3
      subst this
      exact ⟨rfl, .inr ⟨rfl, rfl⟩⟩
  have hpart : ∀ a : CliOption, cliOptions.lookup (partitionEq s).1 = some a →
      ((a = .help ∧ q.takeWhile (· ≠ '=') = ['h', 'e', 'l', 'p']) ∨
        (a = .logLevel ∧ q.takeWhile (· ≠ '=') = ['l', 'o', 'g', '-', 'l', 'e', 'v', 'e', 'l'])) := by
    intro a ha
    rw [lookup_cli, hp] at ha
    split_ifs at ha with h1 h2 h3
    · simp at h1
    · cases ha
      exact .inl ⟨rfl, by simpa using h2⟩
    · cases ha
      exact .inr ⟨rfl, by simpa using h3⟩
  have hdis : q.takeWhile (· ≠ '=') ≠ [] → q.takeWhile (· ≠ '=') <+: ['h', 'e', 'l', 'p'] →
      ¬ q.takeWhile (· ≠ '=') <+: ['l', 'o', 'g', '-', 'l', 'e', 'v', 'e', 'l'] := by
    intro h1 h2 h3
    cases hx : q.takeWhile (· ≠ '=') with
    | nil => exact h1 hx
    | cons c l =>
      rw [hx, List.cons_prefix_cons] at h2 h3
      exact absurd (h2.1.symm.trans h3.1) (by decide)
  have hmain : cliOptional s = match cliOptions.lookup s with
      | some a => some (some ⟨some a, false, false, none⟩)
      | none => match (partitionEq s).2, cliOptions.lookup (partitionEq s).1 with
        | some v, some a => some (some ⟨some a, false, true, some v⟩)
        | _, _ => match getOptionTuples s with
          | _ :: _ :: _ => none
          | [t] => some (some t)
          | [] => cliRest s := by
    unfold cliOptional
    rw [if_neg (by simp [s])]
    have d1 : decide (s = ['-', 'h']) = false := by simp [s]
    have d2 : decide ((partitionEq s).1 = ['-', 'h']) = false := by rw [hp]; simp
    rw [d1, d2, if_neg (show ¬ s.length = 1 by simp [s])]
    rfl
  rw [hH, hL, ne_eq, h0, hmain]
  refine ⟨?_, ?_, ?_, ?_⟩
  · rintro ⟨g1, g2⟩
    have g3 := hdis g1 g2
    rw [ht, if_pos g2, if_neg g3]
    cases hx : cliOptions.lookup s with
    | some a =>
      obtain ⟨h1, ⟨rfl, _⟩ | ⟨_, h⟩⟩ := hexact a hx
      · exact ⟨_, rfl, rfl, h1.symm⟩
      · rw [h] at g2; exact absurd g2 (by decide)
    | none =>
      cases hy : (partitionEq s).2 with
      | none => exact ⟨_, rfl, rfl, rfl⟩
      | some v =>
        cases hz : cliOptions.lookup (partitionEq s).1 with
        | none => exact ⟨_, rfl, rfl, rfl⟩
        | some a =>
          obtain ⟨rfl, _⟩ | ⟨_, h⟩ := hpart a hz
          · exact ⟨_, rfl, rfl, rfl⟩
          · rw [h] at g2; exact absurd g2 (by decide)
  · rintro ⟨g1, g2⟩
    have g3 : ¬ q.takeWhile (· ≠ '=') <+: ['h', 'e', 'l', 'p'] := fun h => hdis g1 h g2
    rw [ht, if_neg g3, if_pos g2]
    cases hx : cliOptions.lookup s with
    | some a =>
      obtain ⟨h1, ⟨_, h⟩ | ⟨rfl, _⟩⟩ := hexact a hx
      · rw [h] at g2; exact absurd g2 (by decide)
      · exact ⟨_, rfl, by rw [h1]; rfl⟩
    | none =>
      cases hy : (partitionEq s).2 with
      | none => exact ⟨_, rfl, rfl⟩
      | some v =>
        cases hz : cliOptions.lookup (partitionEq s).1 with
        | none => exact ⟨_, rfl, rfl⟩
        | some a =>
          obtain ⟨_, h⟩ | ⟨rfl, _⟩ := hpart a hz
          · rw [h] at g2; exact absurd g2 (by decide)
          · exact ⟨_, rfl, rfl⟩
  · intro g
    have hx : cliOptions.lookup s = none := by
      cases hx : cliOptions.lookup s with
      | none => rfl
      | some a => obtain ⟨_, ⟨_, h⟩ | ⟨_, h⟩⟩ := hexact a hx <;> rw [g] at h <;> cases h
    have hz : cliOptions.lookup (partitionEq s).1 = none := by
      cases hz : cliOptions.lookup (partitionEq s).1 with
      | none => rfl
      | some a => obtain ⟨_, h⟩ | ⟨_, h⟩ := hpart a hz <;> rw [g] at h <;> cases h
    rw [hx, hz, ht, g]
    simp
  · intro g1 g2 g0'
    have g0 := mt h0.2 g0'
    have n1 : ¬ q.takeWhile (· ≠ '=') <+: ['h', 'e', 'l', 'p'] := fun h => g1 ⟨g0, h⟩
    have n2 : ¬ q.takeWhile (· ≠ '=') <+: ['l', 'o', 'g', '-', 'l', 'e', 'v', 'e', 'l'] := fun h => g2 ⟨g0, h⟩
    have hx : cliOptions.lookup s = none := by
      cases hx : cliOptions.lookup s with
      | none => rfl
      | some a =>
        obtain ⟨_, ⟨_, h⟩ | ⟨_, h⟩⟩ := hexact a hx
        · exact absurd (by rw [h]) n1
        · exact absurd (by rw [h]) n2
    have hz : cliOptions.lookup (partitionEq s).1 = none := by
      cases hz : cliOptions.lookup (partitionEq s).1 with
      | none => rfl
      | some a =>
        obtain ⟨_, h⟩ | ⟨_, h⟩ := hpart a hz
        · exact absurd (by rw [h]) n1
        · exact absurd (by rw [h]) n2
    rw [hx, hz, ht, if_neg n1, if_neg n2]
    simp

theorem unsigned_iff (r : List Char) : (match r.dropWhile Char.isDigit with
    | [] => !(r.takeWhile Char.isDigit).isEmpty
    | '.' :: b => !b.isEmpty && b.all Char.isDigit
    | _ => false) = true ↔ Unsigned r := by
  have hsplit := List.takeWhile_append_dropWhile (p := Char.isDigit) (l := r)
  have hdig : ∀ c ∈ r.takeWhile Char.isDigit, c.isDigit = true := fun c hc => List.mem_takeWhile_imp hc
  constructor
  · intro h
    split at h
    · next e =>
      rw [e, List.append_nil] at hsplit
      refine ⟨[], r, by simp, fun c hc => hdig c (hsplit.symm ▸ hc), ?_, .inl rfl⟩
      rintro rfl
      simp at h
    · next b e =>
      simp only [Bool.and_eq_true, Bool.not_eq_true', List.isEmpty_eq_false_iff, List.all_eq_true] at h
      exact ⟨r.takeWhile Char.isDigit, b, hdig, h.2, h.1, .inr (by rw [← e, hsplit])⟩
    · cases h
  · rintro ⟨a, b, ha, hb, hne, h | rfl⟩
    · subst h
      have e1 : r.dropWhile Char.isDigit = [] := List.dropWhile_eq_nil_iff.2 hb
      have e2 : r.takeWhile Char.isDigit = r := List.takeWhile_eq_self_iff.2 hb
      rw [e1, e2]
      simpa using hne
    · have e1 : (a ++ '.' :: b).dropWhile Char.isDigit = '.' :: b := by
        rw [List.dropWhile_append_of_pos ha]
        rfl
      rw [e1]
      simp only [Bool.and_eq_true, Bool.not_eq_true', List.isEmpty_eq_false_iff, List.all_eq_true]
      exact ⟨hne, hb⟩

theorem Spec.Unsigned.last {r : List Char} (h : Unsigned r) : ∃ l c, r = l ++ [c] ∧ c.isDigit = true := by
  obtain ⟨a, b, _, hb, hne, h⟩ := h
  obtain ⟨l, c, rfl⟩ := (List.eq_nil_or_concat b).resolve_left hne
  rw [List.concat_eq_append] at h hb
  have hc := hb c (by simp)
  rcases h with rfl | rfl
  · exact ⟨l, c, rfl, hc⟩
  · exact ⟨a ++ '.' :: l, c, by simp, hc⟩

theorem negative_iff (s : List Char) :
    negativeNumber s = true ↔ ∃ r, Unsigned r ∧ (s = '-' :: r ∨ s = '-' :: r ++ ['\n']) := by
  have key : ∀ u : List Char, (match u with
      | '-' :: r =>
        match r.dropWhile Char.isDigit with
        | [] => !(r.takeWhile Char.isDigit).isEmpty
        | '.' :: b => !b.isEmpty && b.all Char.isDigit
        | _ => false
      | _ => false) = true ↔ ∃ r, Unsigned r ∧ u = '-' :: r := by
    intro u
    constructor
    · intro h
      split at h
      · next r => exact ⟨r, (unsigned_iff r).1 h, rfl⟩
      · cases h
    · rintro ⟨r, hr, rfl⟩
      exact (unsigned_iff r).2 hr
  unfold negativeNumber
  by_cases hl : s.getLast? = some '\n'
  · simp only [if_pos hl]
    refine (key _).trans ?_
    have hs : s = s.dropLast ++ ['\n'] := by
      obtain ⟨l, rfl⟩ := List.getLast?_eq_some_iff.1 hl
      simp
    refine exists_congr fun r => and_congr_right fun hr => ?_
    constructor
    · intro h
      exact .inr (by rw [hs, h])
    · rintro (h | h)
      · obtain ⟨l, c, rfl, hc⟩ := hr.last
        rw [h, ← List.cons_append, List.getLast?_append] at hl
        simp only [List.getLast?_singleton, Option.some_or, Option.some.injEq] at hl
        subst hl
        exact absurd hc (by decide)
      · rw [h, List.dropLast_concat]
  · simp only [if_neg hl]
    refine (key _).trans (exists_congr fun r => and_congr_right fun hr => ?_)
    constructor
    · exact .inl
    · rintro (h | h)
      · exact h
      · exact absurd (by rw [h, List.getLast?_append]; rfl) hl

/-- The class of an argument. -/
def argTok (s : List Char) : Option CliTok :=
  match cliOptional s with
  | none => none
  | some none => some (.arg s)
  | some (some t) => some (.opt t.event)

theorem cliTokens_cons (s : List Char) (r : List (List Char)) : cliTokens (s :: r) =
    if s = ['-', '-'] then some (.sep :: r.map .arg)
    else (argTok s).bind (fun t => (cliTokens r).map (t :: ·)) := by
  rw [cliTokens]
  split_ifs
  · rfl
  · unfold argTok
    rcases cliOptional s with _ | _ | t <;> rfl

theorem cliRest_none (s : List Char) : cliRest s = some none ↔ negativeNumber s = true ∨ ' ' ∈ s := by
  unfold cliRest
  split_ifs with h1 h2
  · simp [h1]
  · simp [h2]
  · simp [h1, h2]

theorem cliRest_event (s : List Char) (t : OptTuple) (h : cliRest s = some (some t)) : t.event = .extra := by
  unfold cliRest at h
  split_ifs at h
  · cases h
  · cases h
  · cases h
    rfl

theorem helpCluster_cases (v : List Char) (b : Bool) : helpCluster b v = .help ∨ helpCluster b v = .error := by
  fun_induction helpCluster b v <;> simp_all

theorem help_event (t : OptTuple) (h : t.action = some .help) : t.event = .help ∨ t.event = .error := by
  obtain ⟨a, s, p, e⟩ := t
  cases h
  cases e with
  | none => exact .inl rfl
  | some v =>
    cases s with
    | false => exact .inr rfl
    | true => exact helpCluster_cases v p

/-- Kinds of arguments. -/
theorem argTok_cases (s : List Char) (hs : s ≠ ['-', '-']) :
    (Plain s ∧ argTok s = some (.arg s)) ∨
    (LevelName (partitionEq s).1 ∧ ¬ Plain s ∧ argTok s = some (.opt (.level (partitionEq s).2))) ∨
    (¬ LevelName (partitionEq s).1 ∧ ¬ Plain s ∧
      (argTok s = none ∨ argTok s = some (.opt .extra) ∨ argTok s = some (.opt .help) ∨ argTok s = some (.opt .error))) := by
  have hLd : ∀ n, LevelName n → n.head? = some '-' := by
    rintro n ⟨h1, h2⟩
    cases n with
    | nil => simp at h1
    | cons c n =>
      have := h2
      change c :: n <+: '-' :: _ at this
      rw [List.cons_prefix_cons] at this
      rw [this.1]; rfl
  have hp : ∀ s : List Char, s.head? ≠ some '-' → ¬ LevelName (partitionEq s).1 := by
    intro s h hL
    have := hLd _ hL
    cases s with
    | nil => simp [partitionEq] at this
    | cons c s =>
      simp only [partitionEq, List.takeWhile_cons] at this
      split_ifs at this
      · exact h this
      · simp at this
  by_cases h0 : s.head? = some '-'
  swap
  · refine .inl ⟨.inl h0, ?_⟩
    unfold argTok cliOptional
    rw [if_pos h0]
  obtain ⟨u, rfl⟩ : ∃ u, s = '-' :: u := by
    cases s with
    | nil => simp at h0
    | cons c u => exact ⟨u, by simpa using h0⟩
  cases u with
  | nil => exact .inl ⟨.inr (.inl rfl), rfl⟩
  | cons c r =>
    have hneg : ∀ c' r', '-' :: c' :: r' = '-' :: c :: r → c = 'h' ∨ c = '-' → ¬ ∃ x, Unsigned x ∧
        ('-' :: c :: r = '-' :: x ∨ '-' :: c :: r = '-' :: x ++ ['\n']) := by
      rintro _ _ - hc ⟨x, hx, h⟩
      have hx0 : x ≠ [] := by
        rintro rfl
        obtain ⟨l, c, h, _⟩ := hx.last
        simp at h
      obtain ⟨y, z, rfl⟩ := List.exists_cons_of_ne_nil hx0
      have hy : y = c := by
        rcases h with h | h
        · simpa using (congrArg (fun l => l.getD 1 ' ') h).symm
        · simpa using (congrArg (fun l => l.getD 1 ' ') h).symm
      subst hy
      obtain ⟨a, b, ha, hb, hne, h | h⟩ := hx
      · have := hb y (by rw [← h]; simp)
        rcases hc with rfl | rfl <;> exact absurd this (by decide)
      · cases a with
        | nil =>
          simp only [List.nil_append, List.cons.injEq] at h
          rcases hc with hc | hc <;> rw [h.1] at hc <;> exact absurd hc (by decide)
        | cons d a =>
          simp only [List.cons_append, List.cons.injEq] at h
          have := ha d (by simp)
          rw [← h.1] at this
          rcases hc with rfl | rfl <;> exact absurd this (by decide)
    by_cases hd : c = '-'
    · subst hd
      have hr : r ≠ [] := by
        rintro rfl
        exact hs rfl
      obtain ⟨o1, o2, o3, o4⟩ := opt_long r hr
      have e0 : (partitionEq ('-' :: '-' :: r)).1 = ('-' :: '-' :: r).takeWhile (· ≠ '=') := rfl
      have hPl : Plain ('-' :: '-' :: r) ↔ ' ' ∈ '-' :: '-' :: r ∧
          ¬ ((partitionEq ('-' :: '-' :: r)).1 <+: "--log-level".toList ∨
            (partitionEq ('-' :: '-' :: r)).1 <+: "--help".toList) := by
        unfold Plain
        rw [e0]
        constructor
        · rintro (h | h | h | h)
          · simp at h
          · simp at h
          · exact absurd h (hneg _ _ rfl (.inr rfl))
          · exact ⟨h.1, fun hh => h.2.2 ⟨⟨r, rfl⟩, hh⟩⟩
        · rintro ⟨h1, h2⟩
          exact .inr (.inr (.inr ⟨h1, by simp [List.cons_prefix_cons], fun hh => h2 hh.2⟩))
      by_cases hL : LevelName (partitionEq ('-' :: '-' :: r)).1
      · obtain ⟨t, h1, h2⟩ := o2 hL
        refine .inr (.inl ⟨hL, fun h => (hPl.1 h).2 (.inl hL.2), ?_⟩)
        unfold argTok
        rw [h1, ← h2]
      by_cases hH : HelpName (partitionEq ('-' :: '-' :: r)).1
      · obtain ⟨t, h1, h2, _⟩ := o1 hH
        refine .inr (.inr ⟨hL, fun h => (hPl.1 h).2 (.inr hH.2), .inr (.inr ?_)⟩)
        unfold argTok
        rw [h1]
        rcases help_event t h2 with h | h
        · exact .inl (by simp only [h])
        · exact .inr (by simp only [h])
      by_cases hA : (partitionEq ('-' :: '-' :: r)).1 = ['-', '-']
      · refine .inr (.inr ⟨hL, fun h => (hPl.1 h).2 (.inl ?_), .inl ?_⟩)
        · rw [hA]; exact ⟨"log-level".toList, rfl⟩
        · unfold argTok
          rw [o3 hA]
      · have hlen : 3 ≤ (partitionEq ('-' :: '-' :: r)).1.length := by
          have e := partitionEq_fst_short '-' r (by decide)
          rw [e] at hA ⊢
          simp only [List.cons.injEq, true_and] at hA
          have := List.length_pos_iff.2 hA
          simp only [List.length_cons]
          omega
        have hno : ¬ ((partitionEq ('-' :: '-' :: r)).1 <+: "--log-level".toList ∨
            (partitionEq ('-' :: '-' :: r)).1 <+: "--help".toList) := by
          rintro (h | h)
          · exact hL ⟨hlen, h⟩
          · exact hH ⟨hlen, h⟩
        have hc := o4 hH hL hA
        have hneg' : ¬ negativeNumber ('-' :: '-' :: r) = true := fun h =>
          hneg _ _ rfl (.inr rfl) ((negative_iff _).1 h)
        by_cases hsp : ' ' ∈ '-' :: '-' :: r
        · refine .inl ⟨hPl.2 ⟨hsp, hno⟩, ?_⟩
          unfold argTok
          rw [hc, (cliRest_none _).2 (.inr hsp)]
        · refine .inr (.inr ⟨hL, fun h => hsp (hPl.1 h).1, .inr (.inl ?_)⟩)
          unfold argTok
          rw [hc, cliRest, if_neg hneg', if_neg hsp]
          rfl
    · have hL : ¬ LevelName (partitionEq ('-' :: c :: r)).1 := by
        rintro ⟨h1, h2⟩
        by_cases hc : c = '='
        · subst hc
          simp [partitionEq] at h1
        · rw [partitionEq_fst_short c r hc] at h2
          change _ <+: '-' :: '-' :: _ at h2
          rw [List.cons_prefix_cons, List.cons_prefix_cons] at h2
          exact hd h2.2.1
      by_cases hh : c = 'h'
      · subst hh
        obtain ⟨t, h1, h2⟩ := opt_h r
        refine .inr (.inr ⟨hL, ?_, .inr (.inr ?_)⟩)
        · rintro (h | h | h | h)
          · simp at h
          · simp at h
          · exact hneg _ _ rfl (.inl rfl) h
          · exact h.2.1 ⟨r, rfl⟩
        · unfold argTok
          rw [h1]
          rcases help_event t h2 with h | h
          · exact .inl (by simp only [h])
          · exact .inr (by simp only [h])
      · have hc := opt_short c r hd hh
        have hPl : Plain ('-' :: c :: r) ↔ negativeNumber ('-' :: c :: r) = true ∨ ' ' ∈ '-' :: c :: r := by
          unfold Plain
          rw [negative_iff]
          constructor
          · rintro (h | h | h | h)
            · simp at h
            · simp at h
            · exact .inl h
            · exact .inr h.1
          · rintro (h | h)
            · exact .inr (.inr (.inl h))
            · refine .inr (.inr (.inr ⟨h, ?_, ?_⟩))
              · rw [List.cons_prefix_cons, List.cons_prefix_cons]
                exact fun h => hh h.2.1.symm
              · rintro ⟨h, -⟩
                rw [List.cons_prefix_cons, List.cons_prefix_cons] at h
                exact hd h.2.1.symm
        by_cases hP : Plain ('-' :: c :: r)
        · refine .inl ⟨hP, ?_⟩
          unfold argTok
          rw [hc, (cliRest_none _).2 (hPl.1 hP)]
        · refine .inr (.inr ⟨hL, hP, .inr (.inl ?_)⟩)
          have h' := mt hPl.2 hP
          rw [not_or] at h'
          unfold argTok
          rw [hc, cliRest, if_neg h'.1, if_neg h'.2]
          rfl

theorem levelName_noEq {n : List Char} (h : LevelName n) : '=' ∉ n := by
  intro hm
  exact absurd (h.2.subset hm) (by decide)

theorem plain_ne_sep {s : List Char} (h : Plain s) : s ≠ ['-', '-'] := by
  rintro rfl
  rcases h with h | h | ⟨r, ⟨a, b, ha, hb, hne, h⟩, h'⟩ | h
  · exact h rfl
  · cases h
  · have hm : '-' ∈ r := by
      rcases h' with h' | h'
      · simp only [List.cons.injEq, true_and] at h'
        rw [← h']; simp
      · cases r with
        | nil => simp at h'
        | cons c r => simp at h'
    rcases h with rfl | rfl
    · exact absurd (hb _ hm) (by decide)
    · rcases List.mem_append.1 hm with h | h
      · exact absurd (ha _ h) (by decide)
      · rcases List.mem_cons.1 h with h | h
        · exact absurd h (by decide)
        · exact absurd (hb _ h) (by decide)
  · exact absurd h.1 (by decide)

theorem partition_noEq {s : List Char} (h : '=' ∉ s) : partitionEq s = (s, none) := by
  unfold partitionEq
  rw [if_neg h, List.takeWhile_eq_self_iff.2]
  intro c hc
  simp only [ne_eq, decide_not, Bool.not_eq_eq_eq_not, Bool.not_true, decide_eq_false_iff_not]
  rintro rfl
  exact h hc

theorem partition_eq {n : List Char} (v : List Char) (h : '=' ∉ n) : partitionEq (n ++ '=' :: v) = (n, some v) := by
  have hp : ∀ c ∈ n, decide (c ≠ '=') = true := by
    intro c hc
    simp only [ne_eq, decide_not, Bool.not_eq_eq_eq_not, Bool.not_true, decide_eq_false_iff_not]
    rintro rfl
    exact h hc
  unfold partitionEq
  rw [if_pos (by simp), List.takeWhile_append_of_pos hp, List.dropWhile_append_of_pos hp]
  simp

theorem partition_some {s v : List Char} (h : (partitionEq s).2 = some v) : s = (partitionEq s).1 ++ '=' :: v := by
  unfold partitionEq at h ⊢
  simp only at h ⊢
  split_ifs at h with hm
  cases h
  conv_lhs => rw [← List.takeWhile_append_dropWhile (p := (· ≠ '=')) (l := s)]
  congr 1
  cases hx : s.dropWhile (· ≠ '=') with
  | nil =>
    rw [List.dropWhile_eq_nil_iff] at hx
    exact absurd (hx _ hm) (by decide)
  | cons c r =>
    have := List.head?_dropWhile_not (p := (· ≠ '=')) s
    rw [hx] at this
    simp only [List.head?_cons, ne_eq, decide_not, Bool.not_eq_eq_eq_not, Bool.not_false, decide_eq_true_eq] at this
    rw [this]
    rfl

theorem partition_none {s : List Char} (h : (partitionEq s).2 = none) : (partitionEq s).1 = s := by
  have hm : '=' ∉ s := by
    intro hm
    unfold partitionEq at h
    simp [hm] at h
  rw [partition_noEq hm]

theorem argTok_plain {s : List Char} (h : Plain s) : argTok s = some (.arg s) := by
  rcases argTok_cases s (plain_ne_sep h) with h' | h' | h'
  · exact h'.2
  · exact absurd h h'.2.1
  · exact absurd h h'.2.1

theorem argTok_level {s : List Char} (h : LevelName (partitionEq s).1) :
    argTok s = some (.opt (.level (partitionEq s).2)) := by
  have hL := h
  have hs : s ≠ ['-', '-'] := by
    rintro rfl
    exact absurd h.1 (by decide)
  rcases argTok_cases s hs with h' | h' | h'
  · exfalso
    have hm : ['-', '-'] <+: (partitionEq s).1 := by
      have h2 := h.2
      have h1 := h.1
      match hx : (partitionEq s).1, h1, h2 with
      | a :: b :: l, _, h2 =>
        change _ <+: '-' :: '-' :: _ at h2
        rw [List.cons_prefix_cons, List.cons_prefix_cons] at h2
        rw [h2.1, h2.2.1]
        exact ⟨l, rfl⟩
    have hp : (partitionEq s).1 <+: s := List.takeWhile_prefix _
    obtain ⟨u, rfl⟩ := hm.trans hp
    rcases h'.1 with h | h | h | h
    · exact h rfl
    · simp at h
    · obtain ⟨r, ⟨a, b, ha, hb, hne, hr⟩, hx⟩ := h
      have hr0 : ∃ r', r = '-' :: r' := by
        cases r with
        | nil =>
          rcases hr with h | h
          · exact absurd h.symm hne
          · simp at h
        | cons c r =>
          rcases hx with hx | hx
          · simp only [List.cons_append, List.cons.injEq, true_and] at hx
            exact ⟨r, by rw [hx.1]⟩
          · simp only [List.cons_append, List.cons.injEq, true_and] at hx
            exact ⟨r, by rw [hx.1]⟩
      obtain ⟨r', rfl⟩ := hr0
      have hm : '-' ∈ ('-' :: r') := by simp
      rcases hr with h | h
      · rw [h] at hm; exact absurd (hb _ hm) (by decide)
      · rw [h] at hm
        rcases List.mem_append.1 hm with h | h
        · exact absurd (ha _ h) (by decide)
        · rcases List.mem_cons.1 h with h | h
          · exact absurd h (by decide)
          · exact absurd (hb _ h) (by decide)
    · exact h.2.2 ⟨⟨u, rfl⟩, .inl hL.2⟩
  · exact h'.2.2
  · exact absurd h h'.1

/-! ### Whole command lines -/

/-- The rest of the arguments, with the file found so far, the level and whether there are extra arguments. -/
def runCli (args : List (List Char)) (i : Option (List Char)) (level : List Char) (extras : Bool) : CliResult :=
  match cliTokens args with
  | none => .usage
  | some toks => parseTokens toks i level extras

theorem extras_not_run (toks : List CliTok) (i : Option (List Char)) (l : List Char) (x y : List Char) :
    parseTokens toks i l true ≠ .run x y := by
  have : ∀ e, e = true → parseTokens toks i l e ≠ .run x y := by
    intro e he
    fun_induction parseTokens toks i l e <;> simp_all
  exact this true rfl

theorem parseTokens_arg (s : List Char) (u : List CliTok) (i l : List Char) (e : Bool) :
    parseTokens (.arg s :: u) (some i) l e = parseTokens u (some i) l true := by
  cases u with
  | nil => rfl
  | cons t u => cases t <;> rfl

theorem parseTokens_sep (u : List CliTok) (i l : List Char) (e : Bool) :
    parseTokens (.sep :: u) (some i) l e = parseTokens u (some i) l true := by
  cases u with
  | nil => rfl
  | cons t u => cases t <;> rfl

theorem runCli_levelNext {n v : List Char} (hn : LevelName n) (hv : Plain v) (r : List (List Char))
    (i : Option (List Char)) (l : List Char) (e : Bool) : runCli (n :: v :: r) i l e = runCli r i v e := by
  have hp := partition_noEq (levelName_noEq hn)
  have h1 : argTok n = some (.opt (.level none)) := by
    have := argTok_level (s := n) (by rw [hp]; exact hn)
    rw [this, hp]
  have hs : n ≠ ['-', '-'] := by
    rintro rfl
    exact absurd hn.1 (by decide)
  unfold runCli
  rw [cliTokens_cons, if_neg hs, h1, cliTokens_cons, if_neg (plain_ne_sep hv), argTok_plain hv]
  cases cliTokens r <;> rfl

theorem runCli_levelExplicit {n : List Char} (v : List Char) (hn : LevelName n) (r : List (List Char))
    (i : Option (List Char)) (l : List Char) (e : Bool) : runCli ((n ++ '=' :: v) :: r) i l e = runCli r i v e := by
  have hp := partition_eq v (levelName_noEq hn)
  have h1 : argTok (n ++ '=' :: v) = some (.opt (.level (some v))) := by
    have := argTok_level (s := n ++ '=' :: v) (by rw [hp]; exact hn)
    rw [this, hp]
  have hs : n ++ '=' :: v ≠ ['-', '-'] := by
    intro h
    have : '=' ∈ ['-', '-'] := by rw [← h]; simp
    exact absurd this (by decide)
  unfold runCli
  rw [cliTokens_cons, if_neg hs, h1]
  cases cliTokens r <;> rfl

theorem runCli_levels {a va : List (List Char)} (h : Levels a va) (r : List (List Char)) (i : Option (List Char))
    (l : List Char) (e : Bool) : runCli (a ++ r) i l e = runCli r i (va.getLastD l) e := by
  induction h generalizing l with
  | nil => rfl
  | next hn hv h ih =>
    rw [List.cons_append, List.cons_append, runCli_levelNext hn hv, ih, List.getLastD_cons]
  | explicit hn h ih =>
    rw [List.cons_append, runCli_levelExplicit _ hn, ih, List.getLastD_cons]

theorem levels_head {b vb : List (List Char)} (h : Levels b vb) : b.head? ≠ some ['-', '-'] := by
  cases h with
  | nil => simp
  | next hn hv h =>
    intro h
    simp only [List.head?_cons, Option.some.injEq] at h
    rw [h] at hn
    exact absurd hn.1 (by decide)
  | @explicit n v _ _ hn h =>
    intro h
    simp only [List.head?_cons, Option.some.injEq] at h
    have : '=' ∈ ['-', '-'] := by rw [← h]; simp
    exact absurd this (by decide)

theorem tokens_head {r : List (List Char)} {toks t : List CliTok} (h : cliTokens r = some toks) (ht : toks = .sep :: t) :
    r.head? = some ['-', '-'] := by
  cases r with
  | nil => cases h; cases ht
  | cons s r =>
    rw [cliTokens_cons] at h
    split_ifs at h with hs
    · rw [hs]; rfl
    · rcases argTok_cases s hs with h' | h' | h'
      · rw [h'.2] at h
        rcases hr : cliTokens r with _ | u
        · simp [hr] at h
        · simp only [hr, Option.map_some, Option.bind_some, Option.some.injEq] at h
          rw [← h] at ht
          cases ht
      · rw [h'.2.2] at h
        rcases hr : cliTokens r with _ | u
        · simp [hr] at h
        · simp only [hr, Option.map_some, Option.bind_some, Option.some.injEq] at h
          rw [← h] at ht
          cases ht
      · rcases h'.2.2 with h'' | h'' | h'' | h''
        · rw [h''] at h; cases h
        all_goals
          rw [h''] at h
          rcases hr : cliTokens r with _ | u
          · simp [hr] at h
          · simp only [hr, Option.map_some, Option.bind_some, Option.some.injEq] at h
            rw [← h] at ht
            cases ht

theorem runCli_file {s : List Char} (hs : Plain s) (r : List (List Char)) (hr : r.head? ≠ some ['-', '-']) (l : List Char)
    (e : Bool) : runCli (s :: r) none l e = runCli r (some s) l e := by
  unfold runCli
  rw [cliTokens_cons, if_neg (plain_ne_sep hs), argTok_plain hs]
  rcases h : cliTokens r with _ | toks
  · rfl
  · simp only [Option.bind_some, Option.map_some]
    cases toks with
    | nil => rfl
    | cons t toks =>
      cases t with
      | sep => exact absurd (tokens_head h rfl) hr
      | arg u => rfl
      | opt u => rfl

/-- **C144.** Valid command lines are understood. -/
theorem commandLine_complete {args : List (List Char)} {i l : List Char} (h : CommandLine args i l) :
    parseCommandLine args = .run i l := by
  change runCli args none "warning".toList false = _
  cases h with
  | @file a b va vb s ha hb hs =>
    rw [runCli_levels ha, runCli_file hs _ (levels_head hb)]
    have := runCli_levels hb [] (some i) (va.getLastD "warning".toList) false
    rw [List.append_nil] at this
    rw [this]
    change CliResult.run _ _ = _
    congr 1
    cases vb with
    | nil => simp
    | cons x vb => simp [List.getLastD_eq_getLast?, List.getLast?_append]
  | @before a va s ha =>
    rw [runCli_levels ha]
    rfl
  | @after a va s ha hs =>
    rw [runCli_levels ha]
    unfold runCli
    rw [cliTokens_cons, if_neg (plain_ne_sep hs), argTok_plain hs]
    rfl

theorem runCli_rest (n : Nat) : ∀ (args : List (List Char)), args.length ≤ n → ∀ (i l i' l' : List Char),
    runCli args (some i) l false = .run i' l' → i' = i ∧ ∃ vs, Levels args vs ∧ l' = vs.getLastD l := by
  induction n with
  | zero =>
    intro args hn i l i' l' h
    cases args with
    | nil => cases h; exact ⟨rfl, [], .nil, rfl⟩
    | cons _ _ => simp at hn
  | succ n ih =>
    intro args hn i l i' l' h
    cases args with
    | nil => cases h; exact ⟨rfl, [], .nil, rfl⟩
    | cons s r =>
      simp only [List.length_cons] at hn
      unfold runCli at h
      rw [cliTokens_cons] at h
      split_ifs at h with hs
      · exact absurd ((parseTokens_sep _ _ _ _).symm.trans h) (extras_not_run _ _ _ _ _)
      · rcases argTok_cases s hs with h' | h' | h'
        · rw [h'.2] at h
          rcases hr : cliTokens r with _ | u
          · simp [hr] at h
          · simp only [hr, Option.map_some, Option.bind_some] at h
            exact absurd ((parseTokens_arg _ _ _ _ _).symm.trans h) (extras_not_run _ _ _ _ _)
        · obtain ⟨hL, _, hA⟩ := h'
          rw [hA] at h
          cases hv : (partitionEq s).2 with
          | some v =>
            rw [hv] at h
            have h2 : runCli r (some i) v false = .run i' l' := by
              unfold runCli
              rcases hr : cliTokens r with _ | u
              · simp [hr] at h
              · simp only [hr, Option.map_some, Option.bind_some] at h
                exact h
            obtain ⟨e1, vs, e2, e3⟩ := ih r (by omega) i v i' l' h2
            refine ⟨e1, v :: vs, ?_, ?_⟩
            · rw [partition_some hv]
              exact .explicit hL e2
            · rw [e3, List.getLastD_cons]
          | none =>
            rw [hv] at h
            have hLs : LevelName s := by rw [← partition_none hv]; exact hL
            cases r with
            | nil => cases h
            | cons v r =>
              simp only [List.length_cons] at hn
              by_cases hsep : v = ['-', '-']
              · rw [cliTokens_cons, if_pos hsep] at h
                cases h
              · rw [cliTokens_cons, if_neg hsep] at h
                rcases argTok_cases v hsep with g | g | g
                · rw [g.2] at h
                  have h2 : runCli r (some i) v false = .run i' l' := by
                    unfold runCli
                    rcases hr : cliTokens r with _ | u
                    · simp [hr] at h
                    · simp only [hr, Option.map_some, Option.bind_some] at h
                      exact h
                  obtain ⟨e1, vs, e2, e3⟩ := ih r (by omega) i v i' l' h2
                  refine ⟨e1, v :: vs, .next hLs g.1 e2, ?_⟩
                  rw [e3, List.getLastD_cons]
                · rw [g.2.2] at h
                  rcases hr : cliTokens r with _ | u
                  · simp [hr] at h
                  · simp only [hr, Option.map_some, Option.bind_some] at h
                    cases h
                · rcases g.2.2 with g' | g' | g' | g'
                  · rw [g'] at h; cases h
                  all_goals
                    rw [g'] at h
                    rcases hr : cliTokens r with _ | u
                    · simp [hr] at h
                    · simp only [hr, Option.map_some, Option.bind_some] at h
                      cases h
        · rcases h'.2.2 with g' | g' | g' | g'
          · rw [g'] at h; cases h
          all_goals
            rw [g'] at h
            rcases hr : cliTokens r with _ | u
            · simp [hr] at h
            · simp only [hr, Option.map_some, Option.bind_some] at h
              first
              | cases h
              | exact absurd h (extras_not_run u _ _ _ _)

theorem runCli_args (i : List Char) (l : List Char) (r : List (List Char)) (i' l' : List Char)
    (h : parseTokens (r.map .arg) (some i) l false = .run i' l') : r = [] ∧ i' = i ∧ l' = l := by
  cases r with
  | nil => cases h; exact ⟨rfl, rfl, rfl⟩
  | cons s r => exact absurd ((parseTokens_arg _ _ _ _ _).symm.trans h) (extras_not_run (r.map .arg) _ _ _ _)

/-- The three forms of a command line, with any level at the start. -/
theorem runCli_sound (n : Nat) : ∀ (args : List (List Char)), args.length ≤ n → ∀ (l i' l' : List Char),
    runCli args none l false = .run i' l' →
      (∃ a b va vb, args = a ++ i' :: b ∧ Levels a va ∧ Levels b vb ∧ Plain i' ∧ l' = (va ++ vb).getLastD l) ∨
      (∃ a va, args = a ++ [['-', '-'], i'] ∧ Levels a va ∧ l' = va.getLastD l) ∨
      (∃ a va, args = a ++ [i', ['-', '-']] ∧ Levels a va ∧ Plain i' ∧ l' = va.getLastD l) := by
  induction n with
  | zero =>
    intro args hn l i' l' h
    cases args with
    | nil => cases h
    | cons _ _ => simp at hn
  | succ n ih =>
    intro args hn l i' l' h
    have lift : ∀ (p : List (List Char)) (v : List Char) (r : List (List Char)), Levels p [v] →
        ((∃ a b va vb, r = a ++ i' :: b ∧ Levels a va ∧ Levels b vb ∧ Plain i' ∧ l' = (va ++ vb).getLastD v) ∨
        (∃ a va, r = a ++ [['-', '-'], i'] ∧ Levels a va ∧ l' = va.getLastD v) ∨
        (∃ a va, r = a ++ [i', ['-', '-']] ∧ Levels a va ∧ Plain i' ∧ l' = va.getLastD v)) →
        ((∃ a b va vb, p ++ r = a ++ i' :: b ∧ Levels a va ∧ Levels b vb ∧ Plain i' ∧ l' = (va ++ vb).getLastD l) ∨
        (∃ a va, p ++ r = a ++ [['-', '-'], i'] ∧ Levels a va ∧ l' = va.getLastD l) ∨
        (∃ a va, p ++ r = a ++ [i', ['-', '-']] ∧ Levels a va ∧ Plain i' ∧ l' = va.getLastD l)) := by
      intro p v r hp
      have hpa : ∀ a va, Levels a va → Levels (p ++ a) (v :: va) := by
        intro a va ha
        cases hp with
        | next hn hv h => cases h; exact .next hn hv ha
        | explicit hn h => cases h; exact .explicit hn ha
      rintro (⟨a, b, va, vb, e, ha, hb, hs, hl⟩ | ⟨a, va, e, ha, hl⟩ | ⟨a, va, e, ha, hs, hl⟩)
      · exact .inl ⟨p ++ a, b, v :: va, vb, by rw [e, List.append_assoc], hpa a va ha, hb, hs, by
          rw [hl, List.cons_append, List.getLastD_cons]⟩
      · exact .inr (.inl ⟨p ++ a, v :: va, by rw [e, List.append_assoc], hpa a va ha, by
          rw [hl, List.getLastD_cons]⟩)
      · exact .inr (.inr ⟨p ++ a, v :: va, by rw [e, List.append_assoc], hpa a va ha, hs, by
          rw [hl, List.getLastD_cons]⟩)
    cases args with
    | nil => cases h
    | cons s r =>
      simp only [List.length_cons] at hn
      by_cases hs : s = ['-', '-']
      · unfold runCli at h
        rw [cliTokens_cons, if_pos hs] at h
        cases r with
        | nil => cases h
        | cons x r =>
          obtain ⟨rfl, rfl, rfl⟩ := runCli_args x l r i' l' h
          exact .inr (.inl ⟨[], [], by rw [hs]; rfl, .nil, rfl⟩)
      · rcases argTok_cases s hs with h' | h' | h'
        · by_cases hr : r.head? = some ['-', '-']
          · obtain ⟨r', rfl⟩ : ∃ r', r = ['-', '-'] :: r' := by
              cases r with
              | nil => simp at hr
              | cons x r => exact ⟨r, by simpa using hr⟩
            unfold runCli at h
            rw [cliTokens_cons, if_neg hs, h'.2, cliTokens_cons, if_pos rfl] at h
            obtain ⟨rfl, rfl, rfl⟩ := runCli_args s l r' i' l' h
            exact .inr (.inr ⟨[], [], rfl, .nil, h'.1, rfl⟩)
          · rw [runCli_file h'.1 r hr] at h
            obtain ⟨rfl, vs, h2, h3⟩ := runCli_rest r.length r le_rfl _ _ _ _ h
            exact .inl ⟨[], r, [], vs, rfl, .nil, h2, h'.1, h3⟩
        · obtain ⟨hL, _, hA⟩ := h'
          cases hv : (partitionEq s).2 with
          | some v =>
            rw [partition_some hv, runCli_levelExplicit v hL] at h
            rw [partition_some hv]
            exact lift [_] v r (.explicit hL .nil) (ih r (by omega) v i' l' h)
          | none =>
            have hLs : LevelName s := by rw [← partition_none hv]; exact hL
            rw [hv] at hA
            cases r with
            | nil =>
              unfold runCli at h
              rw [cliTokens_cons, if_neg hs, hA] at h
              cases h
            | cons v r =>
              simp only [List.length_cons] at hn
              by_cases hsep : v = ['-', '-']
              · unfold runCli at h
                rw [cliTokens_cons, if_neg hs, hA, cliTokens_cons, if_pos hsep] at h
                cases h
              · rcases argTok_cases v hsep with g | g | g
                · rw [runCli_levelNext hLs g.1] at h
                  exact lift [s, v] v r (.next hLs g.1 .nil) (ih r (by omega) v i' l' h)
                · unfold runCli at h
                  rw [cliTokens_cons, if_neg hs, hA, cliTokens_cons, if_neg hsep, g.2.2] at h
                  rcases hr : cliTokens r with _ | u
                  · simp [hr] at h
                  · simp only [hr, Option.map_some, Option.bind_some] at h
                    cases h
                · unfold runCli at h
                  rw [cliTokens_cons, if_neg hs, hA, cliTokens_cons, if_neg hsep] at h
                  rcases g.2.2 with g' | g' | g' | g'
                  · rw [g'] at h; cases h
                  all_goals
                    rw [g'] at h
                    rcases hr : cliTokens r with _ | u
                    · simp [hr] at h
                    · simp only [hr, Option.map_some, Option.bind_some] at h
                      cases h
        · unfold runCli at h
          rw [cliTokens_cons, if_neg hs] at h
          rcases h'.2.2 with g' | g' | g' | g'
          · rw [g'] at h; cases h
          all_goals
            rw [g'] at h
            rcases hr : cliTokens r with _ | u
            · simp [hr] at h
            · simp only [hr, Option.map_some, Option.bind_some] at h
              first
              | cases h
              | exact absurd h (extras_not_run u _ _ _ _)

/-- **C144.** The program runs exactly for the valid command lines, with their input file and log level. -/
theorem commandLine_iff (args : List (List Char)) (i l : List Char) :
    parseCommandLine args = .run i l ↔ CommandLine args i l := by
  refine ⟨fun h => ?_, commandLine_complete⟩
  rcases runCli_sound args.length args le_rfl _ _ _ h with
    ⟨a, b, va, vb, rfl, ha, hb, hs, rfl⟩ | ⟨a, va, rfl, ha, rfl⟩ | ⟨a, va, rfl, ha, hs, rfl⟩
  · exact .file ha hb hs
  · exact .before ha
  · exact .after ha hs

theorem long_short (q : List Char) (t : OptTuple) (h : cliOptional ('-' :: '-' :: q) = some (some t)) :
    t.short = false := by
  have hp : (partitionEq ('-' :: '-' :: q)).1 ≠ ['-', 'h'] := by
    rw [partitionEq_fst_short '-' q (by decide)]
    simp
  unfold cliOptional at h
  rw [if_neg (by simp)] at h
  rcases hl : cliOptions.lookup ('-' :: '-' :: q) with _ | a
  · simp only [hl, List.length_cons, Nat.add_eq_right] at h
    rw [if_neg (by simp)] at h
    have hg : ∀ t ∈ getOptionTuples ('-' :: '-' :: q), t.short = false := by
      intro t ht
      simp only [getOptionTuples, List.mem_map] at ht
      obtain ⟨_, _, rfl⟩ := ht
      rfl
    have hrest : (match getOptionTuples ('-' :: '-' :: q) with
        | _ :: _ :: _ => none
        | [t] => some (some t)
        | [] => cliRest ('-' :: '-' :: q)) = some (some t) → t.short = false := by
      intro h
      rcases hx : getOptionTuples ('-' :: '-' :: q) with _ | ⟨t1, _ | ⟨t2, l⟩⟩
      · simp only [hx] at h
        unfold cliRest at h
        split_ifs at h
        · cases h
        · cases h
        · cases h
          rfl
      · simp only [hx, Option.some.injEq] at h
        subst h
        exact hg _ (by rw [hx]; simp)
      · simp only [hx] at h
        cases h
    rcases h1 : (partitionEq ('-' :: '-' :: q)).2 with _ | v
    · simp only [h1] at h
      exact hrest h
    · rcases h2 : cliOptions.lookup (partitionEq ('-' :: '-' :: q)).1 with _ | a
      · simp only [h1, h2] at h
        exact hrest h
      · simp only [h1, h2, Option.some.injEq] at h
        subst h
        simp [hp]
  · simp only [hl, Option.some.injEq] at h
    subst h
    simp

/-- Help is printed only if it was asked for. -/
theorem help_asked (args : List (List Char)) (h : parseCommandLine args = .help) :
    ∃ s ∈ args, ['-', 'h'] <+: s ∨ HelpName s := by
  have key : ∀ (toks : List CliTok) (i : Option (List Char)) (l : List Char) (e : Bool),
      parseTokens toks i l e = .help → .opt .help ∈ toks := by
    intro toks i l e
    fun_induction parseTokens toks i l e <;> simp_all
  unfold parseCommandLine at h
  rcases ht : cliTokens args with _ | toks
  · simp [ht] at h
  · simp only [ht] at h
    have hm := key _ _ _ _ h
    clear h
    induction args generalizing toks with
    | nil => cases ht; simp at hm
    | cons s r ih =>
      rw [cliTokens_cons] at ht
      split_ifs at ht with hs
      · cases ht
        simp at hm
      · rcases ha : argTok s with _ | t
        · simp [ha] at ht
        · rcases hr : cliTokens r with _ | u
          · simp [hr, ha] at ht
          · simp only [ha, hr, Option.map_some, Option.bind_some, Option.some.injEq] at ht
            subst ht
            rcases List.mem_cons.1 hm with h | h
            · subst h
              refine ⟨s, by simp, ?_⟩
              by_contra hno
              rw [not_or] at hno
              unfold argTok at ha
              rcases hc : cliOptional s with _ | _ | t
              · simp [hc] at ha
              · simp [hc] at ha
              · simp only [hc, Option.some.injEq, CliTok.opt.injEq] at ha
                cases s with
                | nil => cases hc
                | cons c s =>
                  by_cases h0 : c = '-'
                  swap
                  · simp [cliOptional, h0] at hc
                  subst h0
                  cases s with
                  | nil => cases hc
                  | cons c s =>
                    by_cases h1 : c = 'h'
                    · subst h1
                      exact hno.1 ⟨s, rfl⟩
                    by_cases h2 : c = '-'
                    · subst h2
                      have hne : s ≠ [] := by
                        rintro rfl
                        exact hs rfl
                      obtain ⟨o1, o2, o3, o4⟩ := opt_long s hne
                      by_cases hL : LevelName (partitionEq ('-' :: '-' :: s)).1
                      · obtain ⟨t', g1, g2⟩ := o2 hL
                        rw [hc] at g1
                        cases g1
                        rw [g2] at ha
                        cases ha
                      by_cases hA : (partitionEq ('-' :: '-' :: s)).1 = ['-', '-']
                      · rw [o3 hA] at hc
                        cases hc
                      by_cases hH : HelpName (partitionEq ('-' :: '-' :: s)).1
                      · obtain ⟨t', g1, g2, g3⟩ := o1 hH
                        rw [hc] at g1
                        cases g1
                        cases hv : (partitionEq ('-' :: '-' :: s)).2 with
                        | none =>
                          rw [partition_none hv] at hH
                          exact hno.2 hH
                        | some v =>
                          rw [hv] at g3
                          unfold OptTuple.event at ha
                          simp only [g2, g3, long_short s t hc] at ha
                          cases ha
                      · rw [o4 hH hL hA] at hc
                        rw [cliRest_event _ _ hc] at ha
                        cases ha
                    · rw [opt_short c s h2 h1] at hc
                      rw [cliRest_event _ _ hc] at ha
                      cases ha
            · obtain ⟨x, hx, hx'⟩ := ih u hr h
              exact ⟨x, by simp [hx], hx'⟩

variable {R : Type}

/-- **C144.** The exit code is 2 exactly for invalid command lines that do not ask for help; then nothing is simulated. -/
theorem code_two (w : World R) (files : List Char → Option (List (List Char))) (args : List (List Char)) :
    (mainCommand w files args).code = 2 ↔
      (¬ ∃ i l, CommandLine args i l) ∧ parseCommandLine args ≠ .help := by
  simp only [← commandLine_iff]
  unfold mainCommand
  rcases h : parseCommandLine args with ⟨i, l⟩ | _ | _
  · simp only [CliResult.run.injEq, ne_eq, reduceCtorEq, not_false_eq_true, and_true]
    constructor
    · intro hc
      exfalso
      rcases ho : mainText w (files i) with _ | _ | _ <;> rw [ho] at hc <;> cases hc
    · exact fun hn => absurd ⟨i, l, rfl, rfl⟩ hn
  · simp [ProgramEnd.code]
  · simp [ProgramEnd.code]

/-- **C144.** A valid command line runs the program with its file and level. -/
theorem command_main (w : World R) (files : List Char → Option (List (List Char))) (args : List (List Char))
    (i l : List Char) (h : CommandLine args i l) : mainCommand w files args = .main l (mainText w (files i)) := by
  unfold mainCommand
  rw [commandLine_complete h]

/-- The exit code 0 means that help was asked for or that the simulation came to its end. -/
theorem code_zero (w : World R) (files : List Char → Option (List (List Char))) (args : List (List Char)) :
    (mainCommand w files args).code = 0 ↔ parseCommandLine args = .help ∨
      ∃ i l a, CommandLine args i l ∧ mainText w (files i) = .finished a := by
  simp only [← commandLine_iff]
  unfold mainCommand
  rcases h : parseCommandLine args with ⟨i, l⟩ | _ | _
  · constructor
    · intro hc
      refine .inr ⟨i, l, ?_⟩
      rcases ho : mainText w (files i) with _ | _ | a
      · simp only [ho] at hc; cases hc
      · simp only [ho] at hc; cases hc
      · exact ⟨a, rfl, rfl⟩
    · rintro (h | ⟨i', l', a, h, ha⟩)
      · cases h
      · cases h
        simp only [ha]
        rfl
  · simp [ProgramEnd.code]
  · simp [ProgramEnd.code]

/-- The documented call, `python -m bdld input`. -/
theorem command_documented (w : World R) (files : List Char → Option (List (List Char))) (input : List Char)
    (h : input.head? ≠ some '-') : mainCommand w files [input] = .main "warning".toList (mainText w (files input)) :=
  command_main w files [input] input _ (CommandLine.file (a := []) (b := []) .nil .nil (.inl h))

/-- The option before and after the file, with a space or an equals sign, do the same. -/
theorem command_level (w : World R) (files : List Char → Option (List (List Char))) (input l : List Char)
    (h : input.head? ≠ some '-') (hl : l.head? ≠ some '-') :
    let o := "--log-level".toList
    mainCommand w files [input, o, l] = .main l (mainText w (files input)) ∧
    mainCommand w files [o, l, input] = .main l (mainText w (files input)) ∧
    mainCommand w files [input, o ++ '=' :: l] = .main l (mainText w (files input)) ∧
    mainCommand w files [o ++ '=' :: l, input] = .main l (mainText w (files input)) := by
  have hn : LevelName "--log-level".toList := ⟨by decide, List.prefix_refl _⟩
  exact ⟨command_main _ _ _ _ _ (.file (a := []) .nil (.next hn (.inl hl) .nil) (.inl h)),
    command_main _ _ _ _ _ (.file (.next hn (.inl hl) .nil) .nil (.inl h)),
    command_main _ _ _ _ _ (.file (a := []) .nil (.explicit hn .nil) (.inl h)),
    command_main _ _ _ _ _ (.file (.explicit hn .nil) .nil (.inl h))⟩

/-! ### Examples -/

example : parseCommandLine ["input".toList] = .run "input".toList "warning".toList := by decide +kernel
example : parseCommandLine ["--log".toList, "debug".toList, "input".toList, "--log-level=INFO".toList] =
    .run "input".toList "INFO".toList := by decide +kernel
example : parseCommandLine [] = .usage := by decide +kernel
example : parseCommandLine ["a".toList, "b".toList] = .usage := by decide +kernel
example : parseCommandLine ["input".toList, "-h".toList] = .help := by decide +kernel
example : parseCommandLine ["input".toList, "--he".toList] = .help := by decide +kernel
example : parseCommandLine ["-hx".toList] = .help := by decide +kernel
example : parseCommandLine ["-h=x".toList] = .usage := by decide +kernel
example : parseCommandLine ["-hh".toList, "--=1".toList] = .usage := by decide +kernel
example : parseCommandLine ["-v".toList, "input".toList] = .usage := by decide +kernel
example : parseCommandLine ["-1.5".toList] = .run "-1.5".toList "warning".toList := by decide +kernel
example : parseCommandLine ["--".toList, "-input".toList] = .run "-input".toList "warning".toList := by decide +kernel
example : parseCommandLine ["input".toList, "--log-level".toList] = .usage := by decide +kernel
example : parseCommandLine ["--log-level".toList, "--".toList, "input".toList] = .usage := by decide +kernel
example : parseCommandLine ["--log-level=".toList, "input".toList] = .run "input".toList [] := by decide +kernel

end Bdld
