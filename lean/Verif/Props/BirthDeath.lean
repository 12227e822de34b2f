import Verif.Lemmas.BirthDeath
import Mathlib.Data.List.Induction
import Mathlib.Logic.Function.Iterate

/-
C11 - C15, C17, C18, C24, C25: the birth-death algorithm, for every random number generator, every rate
function and every particle type.
-/

namespace Bdld
open Spec

variable {P B U R : Type}

/-- The rates used at the beginning of a step. -/
def bdBeta (c : BdCfg P B U) (s : BdState P R) : List B := c.calcBetas s.particles
/-- The random numbers of a step. -/
def bdRand (ops : RngOps R U) (s : BdState P R) : List U := (ops.random s.particles.length s.rng).1

private theorem doBd_bulk {c : BdCfg P B U} {ops : RngOps R U} {s : BdState P R}
    (hm : c.recalcProbs = false) :
    doBirthDeath c ops s = doBulk c ops s (bdBeta c s) (bdRand ops s) (ops.random s.particles.length s.rng).2 := by
  unfold doBirthDeath; simp [hm, bdBeta, bdRand]

private theorem doBd_recalc {c : BdCfg P B U} {ops : RngOps R U} {s : BdState P R}
    (hm : c.recalcProbs = true) :
    doBirthDeath c ops s = doRecalc c ops s (bdBeta c s) (bdRand ops s) (ops.random s.particles.length s.rng).2 := by
  unfold doBirthDeath; simp [hm, bdBeta, bdRand]

/-- The particles change exactly by the reported events, in the reported order (both modes). Together with
the definition of `CopyMoves` this says what a birth-death step does. -/
theorem bd_moves {c : BdCfg P B U} (hc : c.Lawful) {ops : RngOps R U} (hops : ops.Lawful)
    {s s' : BdState P R} {ev : List (Nat × Nat)} (h : doBirthDeath c ops s = .ok (ev, s')) :
    CopyMoves ev s.particles s'.particles := by
  cases hm : c.recalcProbs with
  | false =>
    rw [doBd_bulk hm] at h
    obtain ⟨_, _, _, _, _, _, _, h7, _⟩ := doBulk_ok hops (hc _) h
    exact h7
  | true =>
    rw [doBd_recalc hm] at h
    obtain ⟨l, h1, h2, h3, _⟩ := doRecalc_ok hc hops (hc _) h
    rw [h2, h3]; exact h1.moves

/-- **C11.** A birth-death step does not change the number of particles. -/
theorem bd_length {c : BdCfg P B U} (hc : c.Lawful) {ops : RngOps R U} (hops : ops.Lawful)
    {s s' : BdState P R} {ev : List (Nat × Nat)} (h : doBirthDeath c ops s = .ok (ev, s')) :
    s'.particles.length = s.particles.length := (bd_moves hc hops h).length

/-- **C11** for `run`, any number of calls at any steps. -/
theorem bd_run_length {c : BdCfg P B U} (hc : c.Lawful) {ops : RngOps R U} (hops : ops.Lawful)
    (stride : Nat) (statsStride : Option Nat) (steps : List Nat) (s s' : BdState P R × BdLog)
    (h : steps.foldlM (bdRun c ops stride statsStride) s = .ok s') :
    s'.1.particles.length = s.1.particles.length := by
  refine foldlM_ok_inv (bdRun c ops stride statsStride)
    (fun _ x => x.1.particles.length = s.1.particles.length) steps [] s s' ?_ rfl h
  intro _ i b b' _ hb he
  unfold bdRun at he
  by_cases h0 : stride = 0
  · rw [if_pos h0] at he; cases he
  · rw [if_neg h0] at he
    by_cases h1 : i % stride = 0
    · rw [if_pos h1] at he
      cases hd : doBirthDeath c ops b.1 with
      | error e => rw [hd] at he; cases he
      | ok x =>
        rw [hd] at he
        simp only [Except.map, pure_eq_ok, ok_bind, Except.ok.injEq] at he
        subst he
        exact (bd_length hc hops (ev := x.1) (s' := x.2) hd).trans hb
    · rw [if_neg h1] at he
      simp only [pure_eq_ok, ok_bind, Except.ok.injEq] at he
      subst he
      exact hb

/-- **C12.** Every reported event refers to two different existing particles (both modes). -/
theorem bd_events_wellFormed {c : BdCfg P B U} (hc : c.Lawful) {ops : RngOps R U} (hops : ops.Lawful)
    {s s' : BdState P R} {ev : List (Nat × Nat)} (h : doBirthDeath c ops s = .ok (ev, s')) :
    ∀ e ∈ ev, WellFormed s.particles.length e := by
  cases hm : c.recalcProbs with
  | false =>
    rw [doBd_bulk hm] at h
    obtain ⟨recs, h1, h2, _⟩ := doBulk_ok hops (hc _) h
    intro e he
    rw [h1] at he
    obtain ⟨x, hx, rfl⟩ := List.mem_map.1 he
    exact (h2 x hx).1
  | true =>
    rw [doBd_recalc hm] at h
    obtain ⟨l, h1, h2, _⟩ := doRecalc_ok hc hops (hc _) h
    rw [h2]; exact h1.wf

/-- **C13.** Mapping the `n - 1` possible random integers through `random_other` yields every walker
except the excluded one exactly once (even in increasing order). -/
theorem random_other_bijective (n i : Nat) (hi : i < n) :
    (List.range (n - 1)).map (fun x => skipExcluded x i) = (List.range n).filter (fun j => decide (j ≠ i)) := by
  have key : ∀ a b : List Nat, a.Pairwise (· < ·) → b.Pairwise (· < ·) → (∀ x, x ∈ a ↔ x ∈ b) → a = b := by
    intro a b ha hb hab
    have hp : a.Perm b := (List.perm_ext_iff_of_nodup (ha.imp Nat.ne_of_lt) (hb.imp Nat.ne_of_lt)).2 hab
    exact hp.eq_of_pairwise (fun _ _ _ _ h1 h2 => absurd h1 (Nat.lt_asymm h2)) ha hb
  apply key
  · rw [List.pairwise_map]
    exact List.pairwise_lt_range.imp (fun {a b} h => by unfold skipExcluded; split <;> split <;> omega)
  · exact List.pairwise_lt_range.filter _
  · intro x
    simp only [List.mem_map, List.mem_range, List.mem_filter, decide_eq_true_eq]
    constructor
    · rintro ⟨y, hy, rfl⟩; exact skipExcluded_spec hi hy
    · rintro ⟨h1, h2⟩
      refine ⟨if x < i then x else x - 1, ?_, ?_⟩
      · split <;> omega
      · unfold skipExcluded; split <;> split <;> omega

/-- **C13**: the code uses the generator's integer in `0..n-2` through exactly this map. -/
theorem randomOther_eq (ops : RngOps R U) (n i : Nat) (r : R) (hn : 2 ≤ n) :
    randomOther ops n i r = .ok (skipExcluded (ops.integers (n - 1) r).1 i, (ops.integers (n - 1) r).2) := by
  unfold randomOther; rw [if_neg (by omega)]

/-- Specification of the roles in an event triggered by a walker with a rate that is (`pos = true`) or is not
positive: a walker with positive rate is killed, otherwise it is duplicated. -/
def RolesOk (pos : Bool) (e : BdEvent) : Prop := if pos then e.kill = e.trigger else e.dup = e.trigger

/-- **C14 (partial)** and **C15**: the events of a bulk step. Full claim of C14: the same roles in the
recalculating mode; that is false, see `bd_roles_recalc_false`.

There is an assignment of a triggering walker to every reported event such that: the trigger's random number
was accepted; if its rate is positive it is the one that is killed, otherwise it is the one that is
duplicated (C14); no walker triggers twice; no walker triggers an event after having been selected to
be killed by an earlier one; and every accepted walker triggers unless it was selected to be killed (C15). -/
theorem bd_bulk_events_partial {c : BdCfg P B U} (hc : c.Lawful) {ops : RngOps R U} (hops : ops.Lawful)
    (hm : c.recalcProbs = false) {s s' : BdState P R} {ev : List (Nat × Nat)}
    (h : doBirthDeath c ops s = .ok (ev, s')) :
    ∃ recs : List BdEvent, ev = recs.map BdEvent.pair ∧
      (∀ e ∈ recs, ∃ u b, (bdRand ops s)[e.trigger]? = some u ∧ (bdBeta c s)[e.trigger]? = some b ∧
        c.accept u b = true ∧ RolesOk (c.gt0 b) e) ∧
      (recs.map (·.trigger)).Nodup ∧
      recs.Pairwise (fun earlier later => later.trigger ≠ earlier.kill) ∧
      (∀ i u b, (bdRand ops s)[i]? = some u → (bdBeta c s)[i]? = some b → c.accept u b = true →
        ∃ e ∈ recs, e.trigger = i ∨ e.kill = i) := by
  rw [doBd_bulk hm] at h
  obtain ⟨recs, h1, h2, h3, h4, h5, h6, _, _⟩ := doBulk_ok hops (hc _) h
  refine ⟨recs, h1, ?_, h3, h5, ?_⟩
  · intro e he
    obtain ⟨_, b, hb, hk, hd⟩ := h2 e he
    obtain ⟨u, b', hu, hb', ha⟩ := (mem_acceptedIndices _ _ _ _).1 (h4 e.trigger (List.mem_map.2 ⟨e, he, rfl⟩))
    rw [hb] at hb'
    injection hb' with hb'
    subst hb'
    refine ⟨u, b, hu, hb, ha, ?_⟩
    unfold RolesOk
    cases hg : c.gt0 b with
    | true => simpa using hk hg
    | false => simpa using hd hg
  · intro i u b hu hb ha
    rcases h6 i ((mem_acceptedIndices _ _ _ _).2 ⟨u, b, hu, hb, ha⟩) with h | h
    · obtain ⟨e, he, rfl⟩ := List.mem_map.1 h; exact ⟨e, he, Or.inl rfl⟩
    · obtain ⟨e, he, rfl⟩ := List.mem_map.1 h; exact ⟨e, he, Or.inr rfl⟩

/-- In the recalculating mode walker `i` triggers event `e`: its random number is accepted for its rate in
the *current* configuration, and the roles are: a walker with positive rate is duplicated, otherwise killed
(the opposite of the bulk mode, see C14). -/
def RecalcFires (c : BdCfg P B U) (rand : List U) (ps : List P) (i : Nat) (e : BdEvent) : Prop :=
  ∃ u b, rand[i]? = some u ∧ (c.calcBetas ps)[i]? = some b ∧ c.accept u b = true ∧
    e.trigger = i ∧ RolesOk (!c.gt0 b) e ∧ WellFormed ps.length e.pair

/-- In the recalculating mode walker `i` triggers nothing: its random number is rejected for its rate in the
current configuration. -/
def RecalcQuiet (c : BdCfg P B U) (rand : List U) (ps : List P) (i : Nat) : Prop :=
  ∃ u b, rand[i]? = some u ∧ (c.calcBetas ps)[i]? = some b ∧ c.accept u b = false

private theorem recalc_sequential {c : BdCfg P B U} {ops : RngOps R U} (hops : ops.Lawful)
    (rand : List U) (hz : ∀ u ∈ rand, ∀ b, c.accept u b = true → c.gt0 b = true ∨ c.lt0 b = true)
    (n : Nat) : ∀ (order : List Nat) (l l' : RecalcLoop P B R), (∀ i ∈ order, i < n) →
    l.particles.length = n → l.beta = c.calcBetas l.particles →
    order.foldlM (recalcStep c ops n rand) l = .ok l' →
    ∃ recs : List BdEvent, l'.events = l.events ++ recs.map BdEvent.pair ∧
      Sequential (RecalcFires c rand) (RecalcQuiet c rand) order l.particles recs l'.particles := by
  intro order
  induction order with
  | nil =>
    intro l l' _ _ _ h
    rw [List.foldlM_nil] at h
    injection h with h
    subst h
    exact ⟨[], by simp, .nil _⟩
  | cons i order ih =>
    intro l l' hlt hlen hbeta h
    rw [List.foldlM_cons] at h
    cases hs : recalcStep c ops n rand l i with
    | error e => rw [hs] at h; cases h
    | ok l1 =>
      rw [hs, ok_bind] at h
      have hi := hlt i (by simp)
      have hlt' : ∀ j ∈ order, j < n := fun j hj => hlt j (by simp [hj])
      unfold recalcStep at hs
      cases hb : l.beta[i]? with
      | none => rw [hb] at hs; cases hs
      | some b =>
      cases hr : rand[i]? with
      | none => rw [hb, hr] at hs; cases hs
      | some u =>
      rw [hb, hr] at hs
      simp only at hs
      have hb' : (c.calcBetas l.particles)[i]? = some b := by rw [← hbeta]; exact hb
      cases ha : c.accept u b with
      | false =>
        rw [ha] at hs
        simp only [Bool.false_eq_true, if_false, Except.ok.injEq] at hs
        subst hs
        obtain ⟨recs, h1, h2⟩ := ih _ _ hlt' (by exact hlen) (by exact hbeta) h
        exact ⟨recs, h1, .skip ⟨u, b, hr, hb', ha⟩ h2⟩
      | true =>
        rw [ha] at hs
        simp only [if_true] at hs
        cases ho : randomOther ops n i l.rng with
        | error e => rw [ho] at hs; cases hs
        | ok o =>
          rw [ho, ok_bind] at hs
          have hoi := randomOther_ok hops hi (o := o.1) (r' := o.2) ho
          have hmem : u ∈ rand := List.mem_of_getElem? hr
          -- the event
          have hev : ∃ e : BdEvent, (recalcEvent c b i o.1 l.currEvent (recalcAttempts c b l.stats)).1
              = some e.pair ∧ e.trigger = i ∧ RolesOk (!c.gt0 b) e ∧ WellFormed n e.pair := by
            unfold recalcEvent
            cases hg : c.gt0 b with
            | true =>
              refine ⟨⟨i, i, o.1⟩, by simp [BdEvent.pair], rfl, by simp [RolesOk], hi, hoi.1, fun h => hoi.2 h.symm⟩
            | false =>
              have hl : c.lt0 b = true := (hz u hmem b ha).resolve_left (by simp [hg])
              refine ⟨⟨i, o.1, i⟩, by simp [hl, BdEvent.pair], rfl, by simp [RolesOk], hoi.1, hi, hoi.2⟩
          obtain ⟨e, he1, he2, he3, he4⟩ := hev
          obtain ⟨oi, orr⟩ := o
          simp only at hs he1
          rw [he1] at hs
          simp only at hs
          cases hp : performMove l.particles e.pair with
          | error x => rw [hp] at hs; cases hs
          | ok ps1 =>
            rw [hp, ok_bind] at hs
            simp only [pure_eq_ok, Except.ok.injEq] at hs
            subst hs
            have hmv := performMove_ok hp
            obtain ⟨recs, h1, h2⟩ := ih _ _ hlt' (by simpa using hmv.1.1.trans hlen) rfl h
            refine ⟨e :: recs, ?_, .event ⟨u, b, hr, hb', ha, he2, he3, by rw [hlen]; exact he4⟩ he2 hmv.1 h2⟩
            rw [h1]; simp

/-- **C71.** In the recalculating mode every walker is considered exactly once, in an order chosen by the
generator, each time with its rate in the configuration left by the events before it; accepted events are executed
immediately, and the reported events are exactly the executed ones in this order. (Assumption as in
`bd_total_recalc_partial`: an event is never accepted for a rate of exactly zero.) The roles are reversed
with respect to C14. -/
theorem bd_recalc_events {c : BdCfg P B U} {ops : RngOps R U} (hops : ops.Lawful)
    (hm : c.recalcProbs = true) {s s' : BdState P R} {ev : List (Nat × Nat)}
    (hz : ∀ u ∈ bdRand ops s, ∀ b, c.accept u b = true → c.gt0 b = true ∨ c.lt0 b = true)
    (h : doBirthDeath c ops s = .ok (ev, s')) :
    ∃ (order : List Nat) (recs : List BdEvent), order.Perm (List.range s.particles.length) ∧
      ev = recs.map BdEvent.pair ∧
      Sequential (RecalcFires c (bdRand ops s)) (RecalcQuiet c (bdRand ops s)) order s.particles recs s'.particles := by
  rw [doBd_recalc hm] at h
  unfold doRecalc at h
  simp only at h
  have hp := hops.shuffle_perm (List.range s.particles.length) (ops.random s.particles.length s.rng).2
  cases hl : (ops.shuffle (List.range s.particles.length) (ops.random s.particles.length s.rng).2).1.foldlM
      (recalcStep c ops s.particles.length (bdRand ops s)) ⟨s.particles, bdBeta c s,
        (ops.shuffle (List.range s.particles.length) (ops.random s.particles.length s.rng).2).2, s.stats, none, []⟩ with
  | error e => rw [hl] at h; cases h
  | ok l =>
    rw [hl, ok_bind] at h
    simp only [pure_eq_ok, Except.ok.injEq, Prod.mk.injEq] at h
    obtain ⟨recs, h1, h2⟩ := recalc_sequential hops (bdRand ops s) hz s.particles.length _ _ l
      (fun i hi => by simpa using hp.mem_iff.1 hi) rfl rfl hl
    refine ⟨_, recs, hp, by rw [← h.1, h1]; simp, ?_⟩
    rw [← h.2]; exact h2

private theorem bulk_rng {c : BdCfg P B U} {ops : RngOps R U} {n : Nat} {beta : List B} :
    ∀ (order : List Nat) (l l' : BulkLoop R), l.dupList.length = l.killList.length →
    order.foldlM (bulkStep c ops n beta) l = .ok l' →
    l'.dupList.length = l'.killList.length ∧ ∃ k, l'.dupList.length = l.dupList.length + k ∧
      l'.rng = (fun r => (ops.integers (n - 1) r).2)^[k] l.rng := by
  intro order
  induction order with
  | nil =>
    intro l l' hl h
    rw [List.foldlM_nil] at h
    injection h with h
    subst h
    exact ⟨hl, 0, rfl, rfl⟩
  | cons i order ih =>
    intro l l' hl h
    rw [List.foldlM_cons] at h
    cases hs : bulkStep c ops n beta l i with
    | error e => rw [hs] at h; cases h
    | ok l1 =>
      rw [hs, ok_bind] at h
      unfold bulkStep at hs
      by_cases hk : i ∈ l.killList
      · rw [if_pos hk] at hs
        injection hs with hs
        subst hs
        exact ih _ _ hl h
      · rw [if_neg hk] at hs
        unfold randomOther at hs
        by_cases hn : n - 1 = 0
        · rw [if_pos hn] at hs; cases hs
        · rw [if_neg hn, ok_bind] at hs
          simp only at hs
          cases hb : beta[i]? with
          | none => rw [hb] at hs; cases hs
          | some b =>
            rw [hb] at hs
            simp only at hs
            have key : l1.dupList.length = l.dupList.length + 1 ∧ l1.killList.length = l.killList.length + 1 ∧
                l1.rng = (ops.integers (n - 1) l.rng).2 := by
              by_cases hg : c.gt0 b = true
              · rw [if_pos hg] at hs
                injection hs with hs
                subst hs
                simp
              · rw [if_neg hg] at hs
                injection hs with hs
                subst hs
                simp
            obtain ⟨h1, k, h2, h3⟩ := ih l1 l' (by omega) h
            refine ⟨h1, k + 1, by omega, ?_⟩
            rw [h3, key.2.2, Function.iterate_succ_apply]

private theorem recalc_rng {c : BdCfg P B U} {ops : RngOps R U} {n : Nat} {rand : List U} :
    ∀ (order : List Nat) (l l' : RecalcLoop P B R),
    order.foldlM (recalcStep c ops n rand) l = .ok l' →
    ∃ k, l'.events.length = l.events.length + k ∧
      l'.rng = (fun r => (ops.integers (n - 1) r).2)^[k] l.rng := by
  intro order
  induction order with
  | nil =>
    intro l l' h
    rw [List.foldlM_nil] at h
    injection h with h
    subst h
    exact ⟨0, rfl, rfl⟩
  | cons i order ih =>
    intro l l' h
    rw [List.foldlM_cons] at h
    cases hs : recalcStep c ops n rand l i with
    | error e => rw [hs] at h; cases h
    | ok l1 =>
      rw [hs, ok_bind] at h
      obtain ⟨k, h2, h3⟩ := ih l1 l' h
      have key : (l1.events.length = l.events.length ∧ l1.rng = l.rng) ∨
          (l1.events.length = l.events.length + 1 ∧ l1.rng = (ops.integers (n - 1) l.rng).2) := by
        unfold recalcStep at hs
        cases hb : l.beta[i]? with
        | none => rw [hb] at hs; cases hs
        | some b =>
        cases hr : rand[i]? with
        | none => rw [hb, hr] at hs; cases hs
        | some u =>
        rw [hb, hr] at hs
        simp only at hs
        cases ha : c.accept u b with
        | false =>
          rw [ha] at hs
          simp only [Bool.false_eq_true, if_false, Except.ok.injEq] at hs
          subst hs
          exact Or.inl ⟨rfl, rfl⟩
        | true =>
          rw [ha] at hs
          simp only [if_true] at hs
          unfold randomOther at hs
          by_cases hn : n - 1 = 0
          · rw [if_pos hn] at hs; cases hs
          · rw [if_neg hn, ok_bind] at hs
            simp only at hs
            cases he : (recalcEvent c b i (skipExcluded (ops.integers (n - 1) l.rng).1 i) l.currEvent
              (recalcAttempts c b l.stats)).1 with
            | none => rw [he] at hs; cases hs
            | some e =>
              rw [he] at hs
              simp only at hs
              cases hp : performMove l.particles e with
              | error x => rw [hp] at hs; cases hs
              | ok ps1 =>
                rw [hp, ok_bind] at hs
                simp only [pure_eq_ok, Except.ok.injEq] at hs
                subst hs
                exact Or.inr ⟨by simp, rfl⟩
      rcases key with ⟨k1, k2⟩ | ⟨k1, k2⟩
      · exact ⟨k, by omega, by rw [h3, k2]⟩
      · exact ⟨k + 1, by omega, by rw [h3, k2, Function.iterate_succ_apply]⟩

/-- **C72.** A birth-death step consumes from the generator, in this order: one uniform number per walker, one
shuffle (of the accepted walkers in bulk mode, of all walkers in recalculating mode), and one integer in
`0..n-2` per reported event; the generator is left in the resulting state, so nothing is drawn twice. -/
theorem bd_rng {c : BdCfg P B U} {ops : RngOps R U} {s s' : BdState P R} {ev : List (Nat × Nat)}
    (h : doBirthDeath c ops s = .ok (ev, s')) :
    ∃ shuffled : List Nat,
      (c.recalcProbs = true → shuffled = List.range s.particles.length) ∧
      (c.recalcProbs = false → ∀ i, i ∈ shuffled ↔ ∃ u b, (bdRand ops s)[i]? = some u ∧
        (bdBeta c s)[i]? = some b ∧ c.accept u b = true) ∧
      s'.rng = (fun r => (ops.integers (s.particles.length - 1) r).2)^[ev.length]
        (ops.shuffle shuffled (ops.random s.particles.length s.rng).2).2 := by
  cases hm : c.recalcProbs with
  | false =>
    rw [doBd_bulk hm] at h
    refine ⟨acceptedIndices c (bdRand ops s) (bdBeta c s), by simp, fun _ i => mem_acceptedIndices _ _ _ _, ?_⟩
    unfold doBulk at h
    simp only at h
    generalize hx : ops.shuffle (acceptedIndices c (bdRand ops s) (bdBeta c s))
      (ops.random s.particles.length s.rng).2 = x at h
    generalize hst : ({ s.stats with
      killAttempts := s.stats.killAttempts + (bdBeta c s).countP c.gt0
      dupAttempts := s.stats.dupAttempts + (s.particles.length - (bdBeta c s).countP c.gt0) } : BdStats) = st at h
    cases hl : x.1.foldlM (bulkStep c ops s.particles.length (bdBeta c s)) ⟨[], [], x.2, st⟩ with
    | error e => rw [hl] at h; cases h
    | ok l =>
      rw [hl, ok_bind] at h
      cases hp : performMoves s.particles (l.dupList.zip l.killList) with
      | error e => rw [hp] at h; cases h
      | ok ps =>
        rw [hp, ok_bind] at h
        simp only [pure_eq_ok, Except.ok.injEq, Prod.mk.injEq] at h
        obtain ⟨h1, k, h2, h3⟩ := bulk_rng _ _ _ rfl hl
        have : ev.length = k := by
          rw [← h.1, List.length_zip]
          simp only [List.length_nil] at h2
          omega
        rw [this, ← h.2]
        exact h3
  | true =>
    rw [doBd_recalc hm] at h
    refine ⟨List.range s.particles.length, by simp, by simp, ?_⟩
    unfold doRecalc at h
    simp only at h
    generalize hx : ops.shuffle (List.range s.particles.length)
      (ops.random s.particles.length s.rng).2 = x at h
    cases hl : x.1.foldlM (recalcStep c ops s.particles.length (bdRand ops s))
      ⟨s.particles, bdBeta c s, x.2, s.stats, none, []⟩ with
    | error e => rw [hl] at h; cases h
    | ok l =>
      rw [hl, ok_bind] at h
      simp only [pure_eq_ok, Except.ok.injEq, Prod.mk.injEq] at h
      obtain ⟨k, h2, h3⟩ := recalc_rng _ _ _ hl
      have : ev.length = k := by
        rw [← h.1]
        simpa using h2
      rw [this, ← h.2]
      exact h3

/-- **C17.** After a step every walker is a copy of a walker from before the step, and a walker not named
as killed in any event is unchanged (both modes). -/
theorem bd_copies {c : BdCfg P B U} (hc : c.Lawful) {ops : RngOps R U} (hops : ops.Lawful)
    {s s' : BdState P R} {ev : List (Nat × Nat)} (h : doBirthDeath c ops s = .ok (ev, s')) :
    (∀ p ∈ s'.particles, p ∈ s.particles) ∧
    (∀ j, (∀ e ∈ ev, e.2 ≠ j) → s'.particles[j]? = s.particles[j]?) :=
  ⟨(bd_moves hc hops h).mem, fun j hj => (bd_moves hc hops h).unchanged j hj⟩

private theorem kills_le (q : B → Bool) (beta : List B) (recs : List BdEvent)
    (hn : (recs.map (·.trigger)).Nodup) :
    recs.countP (fun e => (beta[e.trigger]?).any q) ≤ beta.countP q := by
  have h1 : recs.countP (fun e => (beta[e.trigger]?).any q)
      = (recs.map (·.trigger)).countP (fun i => (beta[i]?).any q) := by
    rw [List.countP_map]; rfl
  have h2 : beta.countP q = (List.range beta.length).countP (fun i => (beta[i]?).any q) := by
    clear h1 hn
    induction beta using List.reverseRecOn with
    | nil => simp
    | append_singleton l a ih =>
      rw [List.countP_append, List.length_append, List.length_singleton, List.range_succ, List.countP_append, ih]
      congr 1
      · apply List.countP_congr
        intro i hi
        rw [List.mem_range] at hi
        rw [List.getElem?_append_left hi]
      · simp
  rw [h1, h2, List.countP_eq_length_filter, List.countP_eq_length_filter]
  apply List.Subperm.length_le
  apply List.subperm_of_subset (hn.filter _)
  intro i hi
  rw [List.mem_filter] at hi ⊢
  refine ⟨?_, hi.2⟩
  rw [List.mem_range]
  by_contra hc
  have := hi.2
  rw [List.getElem?_eq_none (by omega)] at this
  simp at this

/-- **C18**, bulk mode: the attempts grow by exactly the number of walkers (by the number of positive rates
for kills, by the rest for duplications), the successes by the number of executed events, and in both
categories by no more than the attempts. -/
theorem bd_stats_bulk {c : BdCfg P B U} (hc : c.Lawful) {ops : RngOps R U} (hops : ops.Lawful)
    (hm : c.recalcProbs = false) {s s' : BdState P R} {ev : List (Nat × Nat)}
    (h : doBirthDeath c ops s = .ok (ev, s')) :
    s'.stats.killAttempts = s.stats.killAttempts + (bdBeta c s).countP c.gt0 ∧
    s'.stats.dupAttempts = s.stats.dupAttempts + (bdBeta c s).countP (fun b => !c.gt0 b) ∧
    s'.stats.killAttempts + s'.stats.dupAttempts
      = s.stats.killAttempts + s.stats.dupAttempts + s.particles.length ∧
    s'.stats.killCount + s'.stats.dupCount = s.stats.killCount + s.stats.dupCount + ev.length ∧
    s.stats.killCount ≤ s'.stats.killCount ∧ s.stats.dupCount ≤ s'.stats.dupCount ∧
    s'.stats.killCount - s.stats.killCount ≤ s'.stats.killAttempts - s.stats.killAttempts ∧
    s'.stats.dupCount - s.stats.dupCount ≤ s'.stats.dupAttempts - s.stats.dupAttempts := by
  rw [doBd_bulk hm] at h
  have hlen : (bdBeta c s).length = s.particles.length := hc _
  obtain ⟨recs, h1, h2, h3, h4, h5, h6, _, h8⟩ := doBulk_ok hops hlen h
  have hcnt := List.length_eq_countP_add_countP (p := c.gt0) (l := bdBeta c s)
  have hcnt' : (bdBeta c s).countP (fun b => !c.gt0 b) = s.particles.length - (bdBeta c s).countP c.gt0 := by
    have : (bdBeta c s).countP (fun a => decide ¬c.gt0 a = true) = (bdBeta c s).countP (fun b => !c.gt0 b) := by
      apply List.countP_congr; intro x _; simp
    omega
  have hk : killsOf c (bdBeta c s) recs ≤ (bdBeta c s).countP c.gt0 := kills_le _ _ _ h3
  have hd : dupsOf c (bdBeta c s) recs ≤ (bdBeta c s).countP (fun b => !c.gt0 b) := kills_le _ _ _ h3
  have hsum : killsOf c (bdBeta c s) recs + dupsOf c (bdBeta c s) recs = recs.length := by
    unfold killsOf dupsOf
    rw [List.length_eq_countP_add_countP (p := fun e => ((bdBeta c s)[e.trigger]?).any c.gt0) (l := recs)]
    congr 1
    apply List.countP_congr
    intro e he
    obtain ⟨_, b, hb, _⟩ := h2 e he
    simp [hb]
  have hev : ev.length = recs.length := by rw [h1, List.length_map]
  have hle := List.countP_le_length (p := c.gt0) (l := bdBeta c s)
  rw [h8]
  simp only
  rw [hlen] at hle
  refine ⟨trivial, ?_, ?_, ?_, ?_, ?_, ?_, ?_⟩ <;> omega

/-- **C18**, recalculating mode: in both categories the successes grow by no more than the attempts, no
counter decreases, and the successes do not exceed the number of events. -/
theorem bd_stats_recalc {c : BdCfg P B U} (hc : c.Lawful) {ops : RngOps R U} (hops : ops.Lawful)
    (hm : c.recalcProbs = true) {s s' : BdState P R} {ev : List (Nat × Nat)}
    (h : doBirthDeath c ops s = .ok (ev, s')) :
    s'.stats.killCount - s.stats.killCount ≤ s'.stats.killAttempts - s.stats.killAttempts ∧
    s'.stats.dupCount - s.stats.dupCount ≤ s'.stats.dupAttempts - s.stats.dupAttempts ∧
    s.stats.killCount ≤ s'.stats.killCount ∧ s.stats.dupCount ≤ s'.stats.dupCount ∧
    s.stats.killAttempts ≤ s'.stats.killAttempts ∧ s.stats.dupAttempts ≤ s'.stats.dupAttempts ∧
    (s'.stats.killCount - s.stats.killCount) + (s'.stats.dupCount - s.stats.dupCount) ≤ ev.length ∧
    ev.length ≤ s.particles.length := by
  rw [doBd_recalc hm] at h
  obtain ⟨l, h1, h2, h3, h4⟩ := doRecalc_ok hc hops (hc _) h
  rw [h2, h4]
  have := h1.bound
  rw [List.length_range] at this
  exact ⟨h1.kill, h1.dup, h1.mono.1, h1.mono.2.1, h1.mono.2.2.1, h1.mono.2.2.2, h1.events, this⟩

/-- **C18**, whole history (both modes): starting from new statistics, after any number of steps with
anything happening to the particles in between, the successes do not exceed the attempts. -/
theorem bd_stats_history {c : BdCfg P B U} (hc : c.Lawful) {ops : RngOps R U} (hops : ops.Lawful)
    (between : Nat → List P → List P) (calls : List Nat) (s s' : BdState P R)
    (hs : s.stats.killCount ≤ s.stats.killAttempts ∧ s.stats.dupCount ≤ s.stats.dupAttempts)
    (h : calls.foldlM (fun s i => (doBirthDeath c ops { s with particles := between i s.particles }).map (·.2)) s
      = .ok s') :
    s'.stats.killCount ≤ s'.stats.killAttempts ∧ s'.stats.dupCount ≤ s'.stats.dupAttempts := by
  refine foldlM_ok_inv _ (fun _ (x : BdState P R) =>
    x.stats.killCount ≤ x.stats.killAttempts ∧ x.stats.dupCount ≤ x.stats.dupAttempts) calls [] s s' ?_ hs h
  intro _ i b b' _ hb he
  cases hd : doBirthDeath c ops { b with particles := between i b.particles } with
  | error e => rw [hd] at he; cases he
  | ok x =>
    rw [hd] at he
    simp only [Except.map, Except.ok.injEq] at he
    subst he
    cases hm : c.recalcProbs with
    | false =>
      have := bd_stats_bulk hc hops hm (ev := x.1) (s' := x.2) hd
      simp only at this
      omega
    | true =>
      have := bd_stats_recalc hc hops hm (ev := x.1) (s' := x.2) hd
      simp only at this
      omega

/-- **C24 (partial)**, bulk mode. Full claim: no exception for any non-empty particle list. Proved for at
least two walkers; for a single walker an accepted event raises `ValueError`, see
`bd_total_single_false`. -/
theorem bd_total_bulk_partial {c : BdCfg P B U} (hc : c.Lawful) {ops : RngOps R U} (hops : ops.Lawful)
    (hm : c.recalcProbs = false) (s : BdState P R) (hn : 2 ≤ s.particles.length) :
    ∃ x, doBirthDeath c ops s = .ok x := by
  rw [doBd_bulk hm]
  unfold doBulk
  simp only
  have hlen : (bdBeta c s).length = s.particles.length := hc _
  set x := ops.shuffle (acceptedIndices c (bdRand ops s) (bdBeta c s))
    (ops.random s.particles.length s.rng).2 with hx
  have hp : x.1.Perm _ := hops.shuffle_perm _ _
  have hlt : ∀ i ∈ x.1, i < s.particles.length := by
    intro i hi
    obtain ⟨_, _, _, hb, _⟩ := (mem_acceptedIndices _ _ _ _).1 (hp.mem_iff.1 hi)
    rw [← hlen]; exact (List.getElem?_eq_some_iff.1 hb).1
  set st0 : BdStats := { s.stats with
    killAttempts := s.stats.killAttempts + (bdBeta c s).countP c.gt0
    dupAttempts := s.stats.dupAttempts + (s.particles.length - (bdBeta c s).countP c.gt0) } with hst0
  have hstep : ∀ (pre : List Nat) (i : Nat) (l : BulkLoop R), i ∈ x.1 →
      (∃ recs, BulkInv c s.particles.length (bdBeta c s) st0 recs pre l) →
      ∃ l', bulkStep c ops s.particles.length (bdBeta c s) l i = .ok l' ∧
        ∃ recs, BulkInv c s.particles.length (bdBeta c s) st0 recs (pre ++ [i]) l' := by
    rintro pre i l hi ⟨recs, hinv⟩
    have hok : ∃ l', bulkStep c ops s.particles.length (bdBeta c s) l i = .ok l' := by
      unfold bulkStep
      by_cases hk : i ∈ l.killList
      · rw [if_pos hk]; exact ⟨_, rfl⟩
      · rw [if_neg hk, randomOther_eq ops _ _ _ hn, ok_bind]
        have hib : i < (bdBeta c s).length := by rw [hlen]; exact hlt i hi
        simp only [List.getElem?_eq_getElem hib]
        by_cases hg : c.gt0 (bdBeta c s)[i] = true
        · rw [if_pos hg]; exact ⟨_, rfl⟩
        · rw [if_neg hg]; exact ⟨_, rfl⟩
    obtain ⟨l', hl'⟩ := hok
    exact ⟨l', hl', bulkStep_inv hops (hlt i hi) hinv hl'⟩
  obtain ⟨l, h1, recs, h2⟩ := foldlM_total (bulkStep c ops s.particles.length (bdBeta c s))
    (fun pre l => ∃ recs, BulkInv c s.particles.length (bdBeta c s) st0 recs pre l)
    x.1 [] ⟨[], [], x.2, st0⟩ hstep
    ⟨[], rfl, rfl, by simp, by simp, by simp, by simp, by simp [killsOf], by simp [dupsOf], rfl, rfl⟩
  have h3 : ∀ e ∈ l.dupList.zip l.killList, e.1 < s.particles.length ∧ e.2 < s.particles.length := by
    intro e he
    rw [h2.dup_eq, h2.kill_eq, List.zip_map'] at he
    obtain ⟨r, hr, rfl⟩ := List.mem_map.1 he
    have := (h2.ok r hr).1
    exact ⟨this.1, this.2.1⟩
  obtain ⟨ps, hps⟩ := performMoves_total _ s.particles h3
  rw [h1, ok_bind, hps]
  exact ⟨_, rfl⟩

/-- **C24 (partial)**, recalculating mode: proved for at least two walkers if with the random numbers of this
step an event is never accepted for a rate that is neither positive nor negative (`rand <= 0` for rate zero, i.e. a random number of exactly
zero). Otherwise `UnboundLocalError` is possible, see `bd_total_recalc_false`. -/
theorem bd_total_recalc_partial {c : BdCfg P B U} (hc : c.Lawful) {ops : RngOps R U} (hops : ops.Lawful)
    (hm : c.recalcProbs = true) (s : BdState P R) (hn : 2 ≤ s.particles.length)
    (hz : ∀ u ∈ bdRand ops s, ∀ b, c.accept u b = true → c.gt0 b = true ∨ c.lt0 b = true) :
    ∃ x, doBirthDeath c ops s = .ok x := by
  rw [doBd_recalc hm]
  unfold doRecalc
  simp only
  have hlen : (bdBeta c s).length = s.particles.length := hc _
  have hrand : (bdRand ops s).length = s.particles.length := hops.random_length _ _
  set x := ops.shuffle (List.range s.particles.length) (ops.random s.particles.length s.rng).2 with hx
  have hp : x.1.Perm _ := hops.shuffle_perm _ _
  have hlt : ∀ i ∈ x.1, i < s.particles.length := by
    intro i hi
    simpa using hp.mem_iff.1 hi
  have hstep : ∀ (pre : List Nat) (i : Nat) (l : RecalcLoop P B R), i ∈ x.1 →
      RecalcInv c s.particles s.stats pre l →
      ∃ l', recalcStep c ops s.particles.length (bdRand ops s) l i = .ok l' ∧
        RecalcInv c s.particles s.stats (pre ++ [i]) l' := by
    intro pre i l hi hinv
    have hok : ∃ l', recalcStep c ops s.particles.length (bdRand ops s) l i = .ok l' := by
      unfold recalcStep
      have hi1 : i < l.beta.length := by rw [hinv.betaLen]; exact hlt i hi
      have hi2 : i < (bdRand ops s).length := by rw [hrand]; exact hlt i hi
      simp only [List.getElem?_eq_getElem hi1, List.getElem?_eq_getElem hi2]
      by_cases ha : c.accept (bdRand ops s)[i] l.beta[i] = true
      · rw [if_pos ha, randomOther_eq ops _ _ _ hn, ok_bind]
        simp only
        have hoi := skipExcluded_spec (hlt i hi) (hops.integers_lt (s.particles.length - 1) l.rng (by omega))
        unfold recalcEvent
        by_cases hg : c.gt0 l.beta[i] = true
        · rw [if_pos hg]
          simp only
          obtain ⟨ps, hps⟩ := performMove_total l.particles
            (i, skipExcluded (ops.integers (s.particles.length - 1) l.rng).1 i)
            (by rw [hinv.len]; exact hlt i hi) (by rw [hinv.len]; exact hoi.1)
          rw [hps]; exact ⟨_, rfl⟩
        · rw [if_neg hg, if_pos ((hz _ (List.getElem_mem hi2) _ ha).resolve_left hg)]
          simp only
          obtain ⟨ps, hps⟩ := performMove_total l.particles
            (skipExcluded (ops.integers (s.particles.length - 1) l.rng).1 i, i)
            (by rw [hinv.len]; exact hoi.1) (by rw [hinv.len]; exact hlt i hi)
          rw [hps]; exact ⟨_, rfl⟩
      · rw [if_neg ha]; exact ⟨_, rfl⟩
    obtain ⟨l', hl'⟩ := hok
    exact ⟨l', hl', recalcStep_inv hc hops (hlt i hi) hinv hl'⟩
  obtain ⟨l, h1, _⟩ := foldlM_total (recalcStep c ops s.particles.length (bdRand ops s))
    (fun pre l => RecalcInv c s.particles s.stats pre l) x.1 []
    ⟨s.particles, bdBeta c s, x.2, s.stats, none, []⟩ hstep
    ⟨rfl, hlen, by simp, by simp, .nil _, by simp, by simp, by simp, by simp, by simp⟩
  rw [h1]
  exact ⟨_, rfl⟩

/-! ### Execution on the stride (C25) -/

/-- The main loop as far as birth-death is concerned: in step `t` the other actions change the particles
arbitrarily (`env t`), then `BirthDeath.run t` is called; after `n` steps `final_run`. -/
def bdSimulate (c : BdCfg P B U) (ops : RngOps R U) (stride : Nat) (statsStride : Option Nat)
    (env : Nat → List P → List P) (n : Nat) (s : BdState P R × BdLog) : Except PyErr (BdState P R × BdLog) := do
  let s' ← (List.range n).foldlM (fun s t => bdRun c ops stride statsStride
    ({ s.1 with particles := env (t + 1) s.1.particles }, s.2) (t + 1)) s
  return bdFinal statsStride s' n

/-- The steps at which statistics are emitted during the run (specification): the multiples of a positive
`stats_stride` in `1..n`. -/
def recordSteps (statsStride : Option Nat) (n : Nat) : List Nat :=
  match statsStride with
  | none => []
  | some 0 => []
  | some (k + 1) => (List.range' 1 n).filter (fun t => decide (k + 1 ∣ t))

/-- The sequence of states of an execution that performs birth-death exactly at the multiples of `stride`
(specification): the state before step 1, and after every step. -/
inductive BdPath (c : BdCfg P B U) (ops : RngOps R U) (stride : Nat) (env : Nat → List P → List P) :
    Nat → (Nat → BdState P R) → Prop
  | zero (st) : BdPath c ops stride env 0 st
  | moved {n st ev} : BdPath c ops stride env n st → stride ∣ n + 1 →
      doBirthDeath c ops { st n with particles := env (n + 1) (st n).particles } = .ok (ev, st (n + 1)) →
      BdPath c ops stride env (n + 1) st
  | idle {n st} : BdPath c ops stride env n st → ¬ stride ∣ n + 1 →
      st (n + 1) = { st n with particles := env (n + 1) (st n).particles } →
      BdPath c ops stride env (n + 1) st

private theorem BdPath.congr {c : BdCfg P B U} {ops : RngOps R U} {stride : Nat}
    {env : Nat → List P → List P} {n : Nat} {st : Nat → BdState P R}
    (h : BdPath c ops stride env n st) : ∀ (st' : Nat → BdState P R), (∀ i ≤ n, st' i = st i) →
    BdPath c ops stride env n st' := by
  induction h with
  | zero => intro st' _; exact .zero _
  | @moved n st ev _ hd he ih =>
    intro st' heq
    refine .moved (ev := ev) (ih st' (fun i hi => heq i (by omega))) hd ?_
    rw [heq n (by omega), heq (n + 1) (by omega)]; exact he
  | @idle n st _ hd he ih =>
    intro st' heq
    refine .idle (ih st' (fun i hi => heq i (by omega))) hd ?_
    rw [heq n (by omega), heq (n + 1) (by omega)]; exact he

/-- **C25.** In a simulation of `n` steps birth-death is executed exactly at the multiples of `stride`, and a
statistics record with the counters after that step is emitted exactly at the multiples of `stats_stride`,
or, if there is none, once at the end. -/
theorem bd_schedule (c : BdCfg P B U) (ops : RngOps R U) (stride : Nat) (statsStride : Option Nat)
    (env : Nat → List P → List P) (n : Nat) (s0 : BdState P R) (s : BdState P R) (log : BdLog)
    (h : bdSimulate c ops stride statsStride env n (s0, []) = .ok (s, log)) :
    ∃ st : Nat → BdState P R, st 0 = s0 ∧ st n = s ∧ BdPath c ops stride env n st ∧
      log = (recordSteps statsStride n ++ if truthyNat statsStride then [] else [n]).map
        (fun t => (t, (st t).stats)) := by
  unfold bdSimulate at h
  cases hf : (List.range n).foldlM (fun (s : BdState P R × BdLog) t => bdRun c ops stride statsStride
    ({ s.1 with particles := env (t + 1) s.1.particles }, s.2) (t + 1)) (s0, []) with
  | error e => rw [hf] at h; cases h
  | ok s1 =>
    rw [hf, ok_bind] at h
    have hinv := foldlM_ok_inv (fun (s : BdState P R × BdLog) t => bdRun c ops stride statsStride
      ({ s.1 with particles := env (t + 1) s.1.particles }, s.2) (t + 1))
      (fun pre x => pre = List.range pre.length → ∃ st : Nat → BdState P R, st 0 = s0 ∧ st pre.length = x.1 ∧
        BdPath c ops stride env pre.length st ∧
        x.2 = (recordSteps statsStride pre.length).map (fun t => (t, (st t).stats))) (List.range n) [] (s0, []) s1 ?_ ?_ hf
    · rw [List.nil_append] at hinv
      obtain ⟨st, h1, h2, h3, h4⟩ := hinv (by simp)
      rw [List.length_range] at h2 h3 h4
      unfold bdFinal at h
      rcases statsStride with _ | _ | k
      · simp only [truthyNat, pure_eq_ok, Bool.false_eq_true, if_false, Except.ok.injEq, Prod.mk.injEq] at h ⊢
        refine ⟨st, h1, h2.trans h.1, h3, ?_⟩
        rw [← h.2, h4, List.map_append, List.map_cons, List.map_nil, h2]
      · simp only [truthyNat, pure_eq_ok, Bool.false_eq_true, if_false, Except.ok.injEq, Prod.mk.injEq] at h ⊢
        refine ⟨st, h1, h2.trans h.1, h3, ?_⟩
        rw [← h.2, h4, List.map_append, List.map_cons, List.map_nil, h2]
      · simp only [truthyNat, pure_eq_ok, if_true, Except.ok.injEq] at h ⊢
        subst h
        exact ⟨st, h1, h2, h3, by rw [List.append_nil]; exact h4⟩
    · intro pre i b b' _ hb he hpre
      have hpre' : pre = List.range pre.length := by
        rw [List.length_append, List.length_singleton, List.range_succ] at hpre
        exact (List.append_inj' hpre rfl).1
      have hi : i = pre.length := by
        rw [List.length_append, List.length_singleton, List.range_succ] at hpre
        simpa using (List.append_inj' hpre rfl).2
      subst hi
      obtain ⟨st, h1, h2, h3, h4⟩ := hb hpre'
      rw [List.length_append, List.length_singleton]
      unfold bdRun at he
      by_cases h0 : stride = 0
      · rw [if_pos h0] at he; cases he
      rw [if_neg h0] at he
      -- the new state
      have hnew : ∃ st1, (if (pre.length + 1) % stride = 0 then
            (doBirthDeath c ops { b.1 with particles := env (pre.length + 1) b.1.particles }).map (·.2)
            else .ok { b.1 with particles := env (pre.length + 1) b.1.particles }) = .ok st1 ∧
          BdPath c ops stride env (pre.length + 1)
            (fun j => if j = pre.length + 1 then st1 else st j) := by
        have hcong := BdPath.congr h3
        by_cases hd : (pre.length + 1) % stride = 0
        · rw [if_pos hd] at he ⊢
          cases hbd : doBirthDeath c ops { b.1 with particles := env (pre.length + 1) b.1.particles } with
          | error e => rw [hbd] at he; cases he
          | ok y =>
            refine ⟨y.2, rfl, .moved (ev := y.1) (hcong _ ?_) (Nat.dvd_of_mod_eq_zero hd) ?_⟩
            · intro j hj; rw [if_neg (by omega)]
            · rw [if_neg (by omega), if_pos rfl, h2]; exact hbd
        · rw [if_neg hd]
          refine ⟨_, rfl, .idle (hcong _ ?_) (fun h => hd (Nat.mod_eq_zero_of_dvd h)) ?_⟩
          · intro j hj; rw [if_neg (by omega)]
          · rw [if_pos rfl, if_neg (show ¬ pre.length = pre.length + 1 by omega), h2]
      obtain ⟨st1, e1, e2⟩ := hnew
      simp only at he
      rw [e1] at he
      simp only [pure_eq_ok, ok_bind, Except.ok.injEq] at he
      subst he
      refine ⟨_, ?_, ?_, e2, ?_⟩
      · rw [if_neg (by omega)]; exact h1
      · rw [if_pos rfl]
      · rcases statsStride with _ | _ | k
        · simpa [truthyNat, recordSteps] using h4
        · simpa [truthyNat, recordSteps] using h4
        · simp only [truthyNat, recordSteps, Bool.true_and, Option.getD_some] at h4 ⊢
          have hmap : ∀ l : List Nat, (∀ t ∈ l, t ≤ pre.length) →
              l.map (fun t => (t, (if t = pre.length + 1 then st1 else st t).stats))
                = l.map (fun t => (t, (st t).stats)) := by
            intro l hl
            apply List.map_congr_left
            intro t ht
            have := hl t ht
            rw [if_neg (by omega)]
          have hrange : ∀ t ∈ (List.range' 1 pre.length).filter (fun t => decide (k + 1 ∣ t)), t ≤ pre.length := by
            intro t ht
            have := (List.mem_filter.1 ht).1
            rw [List.mem_range'_1] at this
            omega
          rw [List.range'_concat, List.filter_append, List.map_append, hmap _ hrange, ← h4]
          by_cases hk : (pre.length + 1) % (k + 1) = 0
          · have hk' : k + 1 ∣ 1 + 1 * pre.length := by
              rw [show 1 + 1 * pre.length = pre.length + 1 by omega]; exact Nat.dvd_of_mod_eq_zero hk
            rw [if_pos (by simpa using hk)]
            rw [List.filter_cons_of_pos (by simpa using hk')]
            simp only [List.filter_nil, List.map_cons, List.map_nil]
            rw [show 1 + 1 * pre.length = pre.length + 1 by omega, if_pos rfl]
          · have hk' : ¬ k + 1 ∣ 1 + 1 * pre.length := by
              rw [show 1 + 1 * pre.length = pre.length + 1 by omega]
              exact fun h => hk (Nat.mod_eq_zero_of_dvd h)
            rw [if_neg (by simpa using hk)]
            rw [List.filter_cons_of_neg (by simpa using hk')]
            simp
    · intro _
      refine ⟨fun _ => s0, rfl, rfl, .zero _, ?_⟩
      rcases statsStride with _ | _ | k <;> rfl

/-- **C25**, number of executions: in bulk mode the recorded attempts are the number of walkers times
`⌊n / stride⌋` (the other actions not changing the number of walkers). -/
theorem bd_attempts {c : BdCfg P B U} (hc : c.Lawful) {ops : RngOps R U} (hops : ops.Lawful)
    (hm : c.recalcProbs = false) (stride : Nat) (env : Nat → List P → List P)
    (henv : ∀ t ps, (env t ps).length = ps.length) (n : Nat) (st : Nat → BdState P R)
    (h : BdPath c ops stride env n st) :
    (st n).particles.length = (st 0).particles.length ∧
    (st n).stats.killAttempts + (st n).stats.dupAttempts =
      (st 0).stats.killAttempts + (st 0).stats.dupAttempts + (st 0).particles.length * (n / stride) := by
  induction h with
  | zero => simp
  | @moved n st ev _ hd he ih =>
    have h1 := bd_length hc hops he
    have h2 := (bd_stats_bulk hc hops hm he).2.2.1
    simp only [henv] at h1 h2
    rw [Nat.succ_div_of_dvd hd, Nat.mul_add, Nat.mul_one]
    rw [ih.1] at h1 h2
    exact ⟨h1, by omega⟩
  | @idle n st _ hd he ih =>
    rw [Nat.succ_div_of_not_dvd hd, he]
    exact ⟨(henv _ _).trans ih.1, ih.2⟩

/-! ### Examples and counterexamples -/

/-- Test system: particles and rates are integers; walker `p` has rate `p - 10`; every random number that
is at most the absolute value of the rate is accepted. -/
def exBd (recalc : Bool) : BdCfg Int Int Nat where
  calcBetas := fun ps => ps.map (· - 10)
  gt0 := fun b => decide (0 < b)
  lt0 := fun b => decide (b < 0)
  accept := fun u b => decide (u ≤ b.natAbs)
  recalcProbs := recalc

/-- Test generator: the state is a number returned as every random number, shuffling does nothing. -/
def exRng : RngOps Nat Nat where
  random := fun n r => (List.replicate n r, r)
  shuffle := fun l r => (l, r)
  integers := fun n r => (r % n, r)

theorem exRng_lawful : exRng.Lawful where
  random_length := fun n r => by simp [exRng]
  shuffle_perm := fun l r => List.Perm.refl _
  integers_lt := fun n r h => Nat.mod_lt _ h

theorem exBd_lawful (b : Bool) : (exBd b).Lawful := fun ps => by simp [exBd]

/-- Result of a step of the test system: events, particles, statistics. -/
def exBdStep (recalc : Bool) (ps : List Int) (r : Nat) :
    Except PyErr (List (Nat × Nat) × List Int × BdStats) :=
  (doBirthDeath (exBd recalc) exRng ⟨ps, r, ⟨0, 0, 0, 0⟩⟩).map (fun x => (x.1, x.2.particles, x.2.stats))

/-- A bulk step with two events: walker 0 (rate 3 > 0) is killed and replaced by a copy of walker 2, walker 1
(rate -2 < 0) is duplicated onto walker 2; walker 2 (rate 0) is not accepted. -/
example : exBdStep false [13, 8, 10] 1 = .ok ([(2, 0), (1, 2)], [10, 8, 8], ⟨1, 2, 1, 1⟩) := by decide +kernel

/-- A killed walker does not trigger: walker 1 is selected to be killed by walker 0. -/
example : exBdStep false [7, 8] 2 = .ok ([(0, 1)], [7, 7], ⟨1, 2, 0, 0⟩) := by decide +kernel

/-- Counterexample to C14 in the recalculating mode: walker 0 has a positive rate (3) and walker 1 has rate
0; but instead of being killed, walker 0 is duplicated and walker 1 is killed. (In the bulk mode the
same state and random numbers give the event `(1, 0)`.) -/
theorem bd_roles_recalc_false :
    exBdStep true [13, 10] 1 = .ok ([(0, 1), (1, 0)], [13, 13], ⟨0, 0, 2, 2⟩) ∧
    exBdStep false [13, 10] 1 = .ok ([(1, 0)], [10, 10], ⟨0, 1, 1, 1⟩) := by decide +kernel

/-- The opposite roles in the recalculating mode, for a negative rate: walker 0 with rate -3 is the one that
is killed. -/
theorem bd_roles_recalc_false' :
    exBdStep true [7, 10] 1 = .ok ([(1, 0)], [10, 10], ⟨1, 1, 0, 0⟩) ∧
    exBdStep false [7, 10] 1 = .ok ([(0, 1)], [7, 7], ⟨1, 2, 0, 0⟩) := by decide +kernel

/-- Counterexample to C24: a single walker whose event is accepted. -/
theorem bd_total_single_false :
    exBdStep false [13] 1 = .error .valueError ∧ exBdStep true [13] 1 = .error .valueError := by decide +kernel

/-- Counterexample to C24: rate zero and random number zero in the recalculating mode. -/
theorem bd_total_recalc_false : exBdStep true [10, 10] 0 = .error .unboundLocalError := by decide +kernel

/-- With a rate of zero and a random number of zero after an earlier event of the same step, the earlier event
is executed and reported a second time, without being counted: three events but two successes. -/
theorem bd_recalc_repeated_event :
    exBdStep true [11, 10, 10] 0 = .ok ([(0, 1), (1, 0), (1, 0)], [11, 11, 10], ⟨0, 0, 2, 2⟩) := by decide +kernel

end Bdld
