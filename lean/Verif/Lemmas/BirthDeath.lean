import Verif.Model.BirthDeath
import Verif.Spec.BirthDeath
import Verif.Lemmas.Except
import Mathlib.Data.List.Basic
import Mathlib.Data.List.Perm.Basic
import Mathlib.Data.List.Count

/-
Helper lemmas about the birth-death algorithm.
-/

namespace Bdld
open Spec

/-- Invariants of monadic loops, if the loop succeeds. -/
theorem foldlM_ok_inv {α β : Type} (f : β → α → Except PyErr β) (Inv : List α → β → Prop)
    (xs : List α) : ∀ (pre : List α) (b b' : β),
    (∀ pre i b b', i ∈ xs → Inv pre b → f b i = .ok b' → Inv (pre ++ [i]) b') →
    Inv pre b → xs.foldlM f b = .ok b' → Inv (pre ++ xs) b' := by
  induction xs with
  | nil =>
    intro pre b b' _ h0 h
    rw [List.foldlM_nil] at h
    injection h with h
    subst h
    simpa using h0
  | cons x xs ih =>
    intro pre b b' hs h0 h
    rw [List.foldlM_cons] at h
    cases hx : f b x with
    | error e => rw [hx] at h; cases h
    | ok b1 =>
      rw [hx, ok_bind] at h
      have := ih (pre ++ [x]) b1 b' (fun pre i b b' hi => hs pre i b b' (by simp [hi]))
        (hs pre x b b1 (by simp) h0 hx) h
      simpa using this

/-- Loops whose body never fails. -/
theorem foldlM_total {α β : Type} (f : β → α → Except PyErr β) (Inv : List α → β → Prop)
    (xs : List α) : ∀ (pre : List α) (b : β),
    (∀ pre i b, i ∈ xs → Inv pre b → ∃ b', f b i = .ok b' ∧ Inv (pre ++ [i]) b') →
    Inv pre b → ∃ b', xs.foldlM f b = .ok b' ∧ Inv (pre ++ xs) b' := by
  induction xs with
  | nil => intro pre b _ h0; exact ⟨b, rfl, by simpa using h0⟩
  | cons x xs ih =>
    intro pre b hs h0
    obtain ⟨b1, h1, h2⟩ := hs pre x b (by simp) h0
    obtain ⟨b2, h3, h4⟩ := ih (pre ++ [x]) b1 (fun pre i b hi => hs pre i b (by simp [hi])) h2
    refine ⟨b2, ?_, by simpa using h4⟩
    rw [List.foldlM_cons, h1, ok_bind, h3]

theorem skipExcluded_spec {n i x : Nat} (hi : i < n) (hx : x < n - 1) :
    skipExcluded x i < n ∧ skipExcluded x i ≠ i := by
  unfold skipExcluded
  split <;> omega

theorem randomOther_ok {R U : Type} {ops : RngOps R U} (hops : ops.Lawful) {n i : Nat} {r : R} {o : Nat}
    {r' : R} (hi : i < n) (h : randomOther ops n i r = .ok (o, r')) : o < n ∧ o ≠ i := by
  unfold randomOther at h
  by_cases h1 : n - 1 = 0
  · rw [if_pos h1] at h; cases h
  · rw [if_neg h1] at h
    injection h with h
    injection h with h _
    subst h
    exact skipExcluded_spec hi (hops.integers_lt _ _ (by omega))

theorem performMove_ok {P : Type} {ps ps' : List P} {e : Nat × Nat} (h : performMove ps e = .ok ps') :
    CopyMove e ps ps' ∧ e.1 < ps.length ∧ e.2 < ps.length := by
  unfold performMove at h
  cases h1 : ps[e.1]? with
  | none => rw [h1] at h; cases h
  | some p =>
    rw [h1] at h
    simp only at h
    by_cases h2 : e.2 < ps.length
    · rw [if_pos h2] at h
      injection h with h
      subst h
      refine ⟨⟨by simp, ?_, ?_⟩, ?_, h2⟩
      · rw [List.getElem?_set, if_pos rfl, if_pos h2, h1]
      · intro j hj
        rw [List.getElem?_set, if_neg (fun h => hj h.symm)]
      · exact (List.getElem?_eq_some_iff.1 h1).1
    · rw [if_neg h2] at h; cases h

theorem performMove_total {P : Type} (ps : List P) (e : Nat × Nat) (h1 : e.1 < ps.length)
    (h2 : e.2 < ps.length) : ∃ ps', performMove ps e = .ok ps' := by
  unfold performMove
  rw [List.getElem?_eq_getElem h1]
  simp only
  rw [if_pos h2]
  exact ⟨_, rfl⟩

theorem performMoves_ok {P : Type} (es : List (Nat × Nat)) : ∀ {ps ps' : List P},
    performMoves ps es = .ok ps' → CopyMoves es ps ps' := by
  induction es with
  | nil =>
    intro ps ps' h
    unfold performMoves at h
    rw [List.foldlM_nil] at h
    injection h with h
    subst h
    exact .nil _
  | cons e es ih =>
    intro ps ps' h
    unfold performMoves at h
    rw [List.foldlM_cons] at h
    cases h1 : performMove ps e with
    | error x => rw [h1] at h; cases h
    | ok q =>
      rw [h1, ok_bind] at h
      exact .cons (performMove_ok h1).1 (ih h)

theorem performMoves_total {P : Type} (es : List (Nat × Nat)) : ∀ (ps : List P),
    (∀ e ∈ es, e.1 < ps.length ∧ e.2 < ps.length) → ∃ ps', performMoves ps es = .ok ps' := by
  induction es with
  | nil => intro ps _; exact ⟨ps, rfl⟩
  | cons e es ih =>
    intro ps h
    obtain ⟨q, hq⟩ := performMove_total ps e (h e (by simp)).1 (h e (by simp)).2
    have hl := (performMove_ok hq).1.1
    obtain ⟨q', hq'⟩ := ih q (fun x hx => by rw [hl]; exact h x (by simp [hx]))
    refine ⟨q', ?_⟩
    unfold performMoves
    rw [List.foldlM_cons, hq, ok_bind]
    exact hq'

theorem Spec.CopyMoves.length {P : Type _} {es : List (Nat × Nat)} {ps ps' : List P}
    (h : CopyMoves es ps ps') : ps'.length = ps.length := by
  induction h with
  | nil => rfl
  | cons h _ ih => rw [ih, h.1]

theorem Spec.CopyMoves.snoc {P : Type _} {es : List (Nat × Nat)} {ps ps' ps'' : List P} {e : Nat × Nat}
    (h : CopyMoves es ps ps') (h' : CopyMove e ps' ps'') : CopyMoves (es ++ [e]) ps ps'' := by
  induction h with
  | nil => exact .cons h' (.nil _)
  | cons h1 _ ih => exact .cons h1 (ih h')

/-- Every walker after a sequence of moves was there before. -/
theorem Spec.CopyMoves.mem {P : Type _} {es : List (Nat × Nat)} {ps ps' : List P}
    (h : CopyMoves es ps ps') : ∀ p ∈ ps', p ∈ ps := by
  induction h with
  | nil => exact fun p hp => hp
  | @cons e es ps ps1 ps2 h1 _ ih =>
    intro p hp
    have := ih p hp
    obtain ⟨j, hj⟩ := List.mem_iff_getElem?.1 this
    by_cases he : j = e.2
    · subst he
      rw [h1.2.1] at hj
      exact List.mem_iff_getElem?.2 ⟨_, hj⟩
    · rw [h1.2.2 j he] at hj
      exact List.mem_iff_getElem?.2 ⟨_, hj⟩

/-- Walkers that are not killed are unchanged. -/
theorem Spec.CopyMoves.unchanged {P : Type _} {es : List (Nat × Nat)} {ps ps' : List P}
    (h : CopyMoves es ps ps') (j : Nat) (hj : ∀ e ∈ es, e.2 ≠ j) : ps'[j]? = ps[j]? := by
  induction h with
  | nil => rfl
  | @cons e es ps ps1 ps2 h1 _ ih =>
    rw [ih (fun x hx => hj x (by simp [hx])), h1.2.2 j (fun h => hj e (by simp) h.symm)]

/-- What is known about one event of the bulk branch. -/
def BulkEventOk {P B U : Type} (c : BdCfg P B U) (n : Nat) (beta : List B) (e : BdEvent) : Prop :=
  WellFormed n e.pair ∧ ∃ b, beta[e.trigger]? = some b ∧
    (c.gt0 b = true → e.kill = e.trigger) ∧ (c.gt0 b = false → e.dup = e.trigger)

/-- number of triggers with positive rate -/
def killsOf {P B U : Type} (c : BdCfg P B U) (beta : List B) (recs : List BdEvent) : Nat :=
  recs.countP (fun e => (beta[e.trigger]?).any c.gt0)

/-- number of triggers with non-positive rate -/
def dupsOf {P B U : Type} (c : BdCfg P B U) (beta : List B) (recs : List BdEvent) : Nat :=
  recs.countP (fun e => (beta[e.trigger]?).any (fun b => !c.gt0 b))

/-- Invariant of the loop of the bulk branch after processing the walkers `pre`. -/
structure BulkInv {P B U R : Type} (c : BdCfg P B U) (n : Nat) (beta : List B) (st0 : BdStats)
    (recs : List BdEvent) (pre : List Nat) (l : BulkLoop R) : Prop where
  dup_eq : l.dupList = recs.map (·.dup)
  kill_eq : l.killList = recs.map (·.kill)
  ok : ∀ e ∈ recs, BulkEventOk c n beta e
  sub : (recs.map (·.trigger)).Sublist pre
  later : recs.Pairwise (fun a b => b.trigger ≠ a.kill)
  complete : ∀ i ∈ pre, i ∈ recs.map (·.trigger) ∨ i ∈ recs.map (·.kill)
  killCount : l.stats.killCount = st0.killCount + killsOf c beta recs
  dupCount : l.stats.dupCount = st0.dupCount + dupsOf c beta recs
  killAttempts : l.stats.killAttempts = st0.killAttempts
  dupAttempts : l.stats.dupAttempts = st0.dupAttempts

theorem bulkStep_inv {P B U R : Type} {c : BdCfg P B U} {ops : RngOps R U} (hops : ops.Lawful)
    {n : Nat} {beta : List B} {st0 : BdStats} {recs : List BdEvent} {pre : List Nat} {l l' : BulkLoop R}
    {i : Nat} (hi : i < n) (h : BulkInv c n beta st0 recs pre l)
    (hs : bulkStep c ops n beta l i = .ok l') :
    ∃ recs', BulkInv c n beta st0 recs' (pre ++ [i]) l' := by
  unfold bulkStep at hs
  by_cases hk : i ∈ l.killList
  · rw [if_pos hk] at hs
    injection hs with hs
    subst hs
    refine ⟨recs, h.dup_eq, h.kill_eq, h.ok, h.sub.trans (List.sublist_append_left _ _), h.later, ?_,
      h.killCount, h.dupCount, h.killAttempts, h.dupAttempts⟩
    intro j hj
    rcases List.mem_append.1 hj with hj | hj
    · exact h.complete j hj
    · simp only [List.mem_singleton] at hj
      subst hj
      right; rw [← h.kill_eq]; exact hk
  · rw [if_neg hk] at hs
    cases ho : randomOther ops n i l.rng with
    | error e => rw [ho] at hs; cases hs
    | ok x =>
      obtain ⟨o, r'⟩ := x
      have hoi := randomOther_ok hops hi ho
      rw [ho, ok_bind] at hs
      simp only at hs
      cases hb : beta[i]? with
      | none => rw [hb] at hs; cases hs
      | some b =>
        rw [hb] at hs
        simp only at hs
        have hlater : ∀ e : BdEvent, e.trigger = i → (recs ++ [e]).Pairwise (fun a b => b.trigger ≠ a.kill) := by
          intro e he
          rw [List.pairwise_append]
          refine ⟨h.later, by simp, ?_⟩
          intro a ha b hb
          simp only [List.mem_singleton] at hb
          subst hb
          rw [he]
          intro hc
          exact hk (by rw [h.kill_eq]; exact List.mem_map.2 ⟨a, ha, hc.symm⟩)
        have hcompl : ∀ e : BdEvent, e.trigger = i → ∀ j ∈ pre ++ [i],
            j ∈ (recs ++ [e]).map (·.trigger) ∨ j ∈ (recs ++ [e]).map (·.kill) := by
          intro e he j hj
          rw [List.map_append, List.map_append, List.mem_append, List.mem_append]
          rcases List.mem_append.1 hj with hj | hj
          · rcases h.complete j hj with hj | hj
            · exact Or.inl (Or.inl hj)
            · exact Or.inr (Or.inl hj)
          · simp only [List.mem_singleton] at hj
            exact Or.inl (Or.inr (by simp [he, hj]))
        by_cases hg : c.gt0 b = true
        · rw [if_pos hg] at hs
          injection hs with hs
          subst hs
          refine ⟨recs ++ [⟨i, o, i⟩], by simp [h.dup_eq], by simp [h.kill_eq], ?_, ?_,
            hlater _ rfl, hcompl _ rfl, ?_, ?_, h.killAttempts, h.dupAttempts⟩
          · intro e he
            rcases List.mem_append.1 he with he | he
            · exact h.ok e he
            · simp only [List.mem_singleton] at he
              subst he
              exact ⟨⟨hoi.1, hi, hoi.2⟩, b, hb, fun _ => rfl, fun hf => by simp [hf] at hg⟩
          · rw [List.map_append]
            exact h.sub.append (by simp)
          · simp [killsOf, List.countP_append, hb, hg, h.killCount, Nat.add_assoc]
          · simp [dupsOf, List.countP_append, hb, hg, h.dupCount]
        · rw [if_neg hg] at hs
          injection hs with hs
          subst hs
          refine ⟨recs ++ [⟨i, i, o⟩], by simp [h.dup_eq], by simp [h.kill_eq], ?_, ?_,
            hlater _ rfl, hcompl _ rfl, ?_, ?_, h.killAttempts, h.dupAttempts⟩
          · intro e he
            rcases List.mem_append.1 he with he | he
            · exact h.ok e he
            · simp only [List.mem_singleton] at he
              subst he
              exact ⟨⟨hi, hoi.1, fun hc => hoi.2 hc.symm⟩, b, hb, fun hf => absurd hf hg, fun _ => rfl⟩
          · rw [List.map_append]
            exact h.sub.append (by simp)
          · simp [killsOf, List.countP_append, hb, hg, h.killCount]
          · simp [dupsOf, List.countP_append, hb, hg, h.dupCount, Nat.add_assoc]

theorem mem_acceptedIndices {P B U : Type} (c : BdCfg P B U) (rand : List U) (beta : List B) (i : Nat) :
    i ∈ acceptedIndices c rand beta ↔
      ∃ r b, rand[i]? = some r ∧ beta[i]? = some b ∧ c.accept r b = true := by
  unfold acceptedIndices
  rw [List.mem_filter, List.mem_range]
  constructor
  · rintro ⟨h1, h2⟩
    cases hr : rand[i]? with
    | none => rw [hr] at h2; simp at h2
    | some r =>
      rw [List.getElem?_eq_getElem h1] at h2 ⊢
      rw [hr] at h2
      exact ⟨r, _, rfl, rfl, h2⟩
  · rintro ⟨r, b, h1, h2, h3⟩
    refine ⟨(List.getElem?_eq_some_iff.1 h2).1, ?_⟩
    rw [h1, h2]; exact h3

theorem nodup_acceptedIndices {P B U : Type} (c : BdCfg P B U) (rand : List U) (beta : List B) :
    (acceptedIndices c rand beta).Nodup := List.nodup_range.filter _

/-- Everything that is known about a bulk step. -/
theorem doBulk_ok {P B U R : Type} {c : BdCfg P B U} {ops : RngOps R U} (hops : ops.Lawful)
    {s s' : BdState P R} {beta : List B} {rand : List U} {r : R} {ev : List (Nat × Nat)}
    (hl : beta.length = s.particles.length) (h : doBulk c ops s beta rand r = .ok (ev, s')) :
    ∃ recs : List BdEvent,
      ev = recs.map BdEvent.pair ∧
      (∀ e ∈ recs, BulkEventOk c s.particles.length beta e) ∧
      (recs.map (·.trigger)).Nodup ∧
      (∀ i, i ∈ recs.map (·.trigger) → i ∈ acceptedIndices c rand beta) ∧
      recs.Pairwise (fun a b => b.trigger ≠ a.kill) ∧
      (∀ i ∈ acceptedIndices c rand beta, i ∈ recs.map (·.trigger) ∨ i ∈ recs.map (·.kill)) ∧
      CopyMoves ev s.particles s'.particles ∧
      s'.stats = ⟨s.stats.dupCount + dupsOf c beta recs,
        s.stats.dupAttempts + (s.particles.length - beta.countP c.gt0),
        s.stats.killCount + killsOf c beta recs,
        s.stats.killAttempts + beta.countP c.gt0⟩ := by
  unfold doBulk at h
  simp only at h
  set st0 : BdStats := { s.stats with
    killAttempts := s.stats.killAttempts + beta.countP c.gt0
    dupAttempts := s.stats.dupAttempts + (s.particles.length - beta.countP c.gt0) } with hst0
  set x := ops.shuffle (acceptedIndices c rand beta) r with hx
  have hp : x.1.Perm (acceptedIndices c rand beta) := hops.shuffle_perm _ _
  have hlt : ∀ i ∈ x.1, i < s.particles.length := by
    intro i hi
    obtain ⟨_, _, _, hb, _⟩ := (mem_acceptedIndices c rand beta i).1 (hp.mem_iff.1 hi)
    rw [← hl]; exact (List.getElem?_eq_some_iff.1 hb).1
  cases hf : x.1.foldlM (bulkStep c ops s.particles.length beta) ⟨[], [], x.2, st0⟩ with
  | error e => rw [hf] at h; cases h
  | ok l =>
    rw [hf, ok_bind] at h
    obtain ⟨recs, hi⟩ := foldlM_ok_inv (bulkStep c ops s.particles.length beta)
      (fun pre l => ∃ recs, BulkInv c s.particles.length beta st0 recs pre l) x.1 [] ⟨[], [], x.2, st0⟩ l
      (fun pre i b b' hi ⟨recs, hb⟩ he => bulkStep_inv hops (hlt i hi) hb he)
      ⟨[], rfl, rfl, by simp, by simp, by simp, by simp, by simp [killsOf], by simp [dupsOf], rfl, rfl⟩ hf
    rw [List.nil_append] at hi
    have hev : l.dupList.zip l.killList = recs.map BdEvent.pair := by
      rw [hi.dup_eq, hi.kill_eq, List.zip_map']
      rfl
    cases hm : performMoves s.particles (l.dupList.zip l.killList) with
    | error e => rw [hm] at h; cases h
    | ok ps =>
      rw [hm, ok_bind] at h
      injection h with h
      injection h with h1 h2
      subst h1 h2
      refine ⟨recs, hev, hi.ok, ?_, ?_, hi.later, ?_, performMoves_ok _ hm, ?_⟩
      · exact hi.sub.nodup (hp.nodup_iff.2 (nodup_acceptedIndices c rand beta))
      · intro i h; exact hp.mem_iff.1 (hi.sub.subset h)
      · intro i h; exact hi.complete i (hp.mem_iff.2 h)
      · show l.stats = _
        have h1 := hi.killCount
        have h2 := hi.dupCount
        have h3 := hi.killAttempts
        have h4 := hi.dupAttempts
        cases hst : l.stats
        simp only [hst] at h1 h2 h3 h4
        subst h1 h2 h3 h4
        simp [hst0]

/-- Every event of the recalculating branch is well formed, and the particles are changed by it. -/
structure RecalcInv {P B U R : Type} (_c : BdCfg P B U) (ps0 : List P) (st0 : BdStats)
    (pre : List Nat) (l : RecalcLoop P B R) : Prop where
  len : l.particles.length = ps0.length
  betaLen : l.beta.length = ps0.length
  wf : ∀ e ∈ l.events, WellFormed ps0.length e
  cur : ∀ e, l.currEvent = some e → e ∈ l.events
  moves : CopyMoves l.events ps0 l.particles
  kill : l.stats.killCount - st0.killCount ≤ l.stats.killAttempts - st0.killAttempts
  dup : l.stats.dupCount - st0.dupCount ≤ l.stats.dupAttempts - st0.dupAttempts
  mono : st0.killCount ≤ l.stats.killCount ∧ st0.dupCount ≤ l.stats.dupCount ∧
    st0.killAttempts ≤ l.stats.killAttempts ∧ st0.dupAttempts ≤ l.stats.dupAttempts
  events : (l.stats.killCount - st0.killCount) + (l.stats.dupCount - st0.dupCount) ≤ l.events.length
  bound : l.events.length ≤ pre.length

theorem recalcStep_inv {P B U R : Type} {c : BdCfg P B U} (hc : c.Lawful) {ops : RngOps R U}
    (hops : ops.Lawful) {ps0 : List P} {st0 : BdStats} {rand : List U} {pre : List Nat}
    {l l' : RecalcLoop P B R} {i : Nat} (hi : i < ps0.length) (h : RecalcInv c ps0 st0 pre l)
    (hs : recalcStep c ops ps0.length rand l i = .ok l') : RecalcInv c ps0 st0 (pre ++ [i]) l' := by
  unfold recalcStep at hs
  cases hb : l.beta[i]? with
  | none => rw [hb] at hs; cases hs
  | some b =>
  cases hr : rand[i]? with
  | none => rw [hb, hr] at hs; cases hs
  | some r =>
  rw [hb, hr] at hs
  simp only at hs
  obtain ⟨m1, m2, m3, m4⟩ := h.mono
  have hk := h.kill
  have hd := h.dup
  have hev := h.events
  have hbd := h.bound
  by_cases ha : c.accept r b = true
  · rw [if_pos ha] at hs
    cases ho : randomOther ops ps0.length i l.rng with
    | error e => rw [ho] at hs; cases hs
    | ok x =>
      obtain ⟨o, r'⟩ := x
      have hoi := randomOther_ok hops hi ho
      rw [ho, ok_bind] at hs
      simp only at hs
      cases he : (recalcEvent c b i o l.currEvent (recalcAttempts c b l.stats)).1 with
      | none => rw [he] at hs; cases hs
      | some e =>
        rw [he] at hs
        simp only at hs
        have hwf : WellFormed ps0.length e := by
          unfold recalcEvent at he
          by_cases hg : c.gt0 b = true
          · rw [if_pos hg] at he
            injection he with he; subst he
            exact ⟨hi, hoi.1, fun hc => hoi.2 hc.symm⟩
          · rw [if_neg hg] at he
            by_cases hl : c.lt0 b = true
            · rw [if_pos hl] at he
              injection he with he; subst he
              exact ⟨hoi.1, hi, hoi.2⟩
            · rw [if_neg hl] at he
              exact h.wf e (h.cur e he)
        cases hm : performMove l.particles e with
        | error x => rw [hm] at hs; cases hs
        | ok ps =>
          rw [hm, ok_bind] at hs
          injection hs with hs
          subst hs
          have hcm := performMove_ok hm
          refine ⟨?_, ?_, ?_, ?_, h.moves.snoc hcm.1, ?_, ?_, ?_, ?_, ?_⟩
          · exact hcm.1.1.trans h.len
          · exact (hc ps).trans (hcm.1.1.trans h.len)
          · intro x hx
            rcases List.mem_append.1 hx with hx | hx
            · exact h.wf x hx
            · simp only [List.mem_singleton] at hx; subst hx; exact hwf
          · intro x hx
            injection hx with hx; subst hx
            simp
          · simp only [recalcEvent, recalcAttempts]
            cases c.gt0 b <;> cases c.lt0 b <;> simp <;> omega
          · simp only [recalcEvent, recalcAttempts]
            cases c.gt0 b <;> cases c.lt0 b <;> simp <;> omega
          · simp only [recalcEvent, recalcAttempts]
            cases c.gt0 b <;> cases c.lt0 b <;> simp <;> omega
          · simp only [recalcEvent, recalcAttempts]
            cases c.gt0 b <;> cases c.lt0 b <;> simp <;> omega
          · simp; omega
  · rw [if_neg ha] at hs
    injection hs with hs
    subst hs
    refine ⟨h.len, h.betaLen, h.wf, h.cur, h.moves, ?_, ?_, ?_, ?_, ?_⟩
    · simp only [recalcAttempts]
      cases c.gt0 b <;> cases c.lt0 b <;> simp <;> omega
    · simp only [recalcAttempts]
      cases c.gt0 b <;> cases c.lt0 b <;> simp <;> omega
    · simp only [recalcAttempts]
      cases c.gt0 b <;> cases c.lt0 b <;> simp <;> omega
    · simp only [recalcAttempts]
      cases c.gt0 b <;> cases c.lt0 b <;> simp <;> omega
    · simp only [List.length_append, List.length_cons, List.length_nil]; omega

theorem doRecalc_ok {P B U R : Type} {c : BdCfg P B U} (hc : c.Lawful) {ops : RngOps R U}
    (hops : ops.Lawful) {s s' : BdState P R} {beta : List B} {rand : List U} {r : R}
    {ev : List (Nat × Nat)} (hl : beta.length = s.particles.length)
    (h : doRecalc c ops s beta rand r = .ok (ev, s')) :
    ∃ l : RecalcLoop P B R, RecalcInv c s.particles s.stats (List.range s.particles.length) l ∧
      ev = l.events ∧ s'.particles = l.particles ∧ s'.stats = l.stats := by
  unfold doRecalc at h
  simp only at h
  set x := ops.shuffle (List.range s.particles.length) r with hx
  have hp : x.1.Perm (List.range s.particles.length) := hops.shuffle_perm _ _
  cases hf : x.1.foldlM (recalcStep c ops s.particles.length rand)
      ⟨s.particles, beta, x.2, s.stats, none, []⟩ with
  | error e => rw [hf] at h; cases h
  | ok l =>
    rw [hf, ok_bind] at h
    injection h with h
    injection h with h1 h2
    subst h1 h2
    have hi := foldlM_ok_inv (recalcStep c ops s.particles.length rand)
      (fun pre l => RecalcInv c s.particles s.stats pre l) x.1 []
      ⟨s.particles, beta, x.2, s.stats, none, []⟩ l
      (fun pre i b b' hi hb he => recalcStep_inv hc hops (by
        have := hp.mem_iff.1 hi; simpa using this) hb he)
      ⟨rfl, hl, by simp, by simp, .nil _, by simp, by simp, by simp, by simp, by simp⟩ hf
    refine ⟨l, ?_, rfl, rfl, rfl⟩
    rw [List.nil_append] at hi
    exact { hi with bound := by rw [← hp.length_eq]; exact hi.bound }

end Bdld
