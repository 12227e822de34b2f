import Verif.Props.BirthDeath

/-
C103: what a killed walker becomes in a step of birth-death with all rates calculated beforehand.
-/

namespace Bdld

open Spec

variable {P B U R : Type}

theorem Spec.CopyMoves.split {es1 es2 : List (Nat × Nat)} {ps ps' : List P} (h : CopyMoves (es1 ++ es2) ps ps') :
    ∃ mid, CopyMoves es1 ps mid ∧ CopyMoves es2 mid ps' := by
  induction es1 generalizing ps with
  | nil => exact ⟨ps, .nil _, h⟩
  | cons e es1 ih =>
    cases h with
    | cons h1 h2 =>
      obtain ⟨mid, h3, h4⟩ := ih h2
      exact ⟨mid, .cons h1 h3, h4⟩

/-- C103 (partial): a walker killed by an event becomes a copy of the walker named in the event, as that was before
the step, if no later event kills it again and the named walker was not replaced by an earlier event. The last
condition always holds for an event triggered by the duplicated walker. Missing for the full claim: events without
these conditions, for which it is false (`bulk_copy_false`, `bulk_twice_false`). -/
theorem bulk_copy_partial {c : BdCfg P B U} (hc : c.Lawful) {ops : RngOps R U} (hops : ops.Lawful)
    (hm : c.recalcProbs = false) {s s' : BdState P R} {ev : List (Nat × Nat)}
    (h : doBirthDeath c ops s = .ok (ev, s')) :
    ∃ recs : List BdEvent, ev = recs.map BdEvent.pair ∧
      (∀ e ∈ recs, e.trigger = e.dup ∨ e.trigger = e.kill) ∧
      ∀ pre e post, recs = pre ++ e :: post → (∀ e' ∈ post, e'.kill ≠ e.kill) →
        (e.trigger = e.dup ∨ ∀ e' ∈ pre, e'.kill ≠ e.dup) →
        s'.particles[e.kill]? = s.particles[e.dup]? := by
  have h' : doBulk c ops s (bdBeta c s) (bdRand ops s) (ops.random s.particles.length s.rng).2 = .ok (ev, s') := by
    unfold doBirthDeath at h
    simpa [hm, bdBeta, bdRand] using h
  obtain ⟨recs, h1, h2, h3, h4, h5, h6, h7, _⟩ := doBulk_ok hops (hc _) h'
  refine ⟨recs, h1, ?_, ?_⟩
  · intro e he
    obtain ⟨_, b, _, hk, hd⟩ := h2 e he
    cases hg : c.gt0 b with
    | true => exact Or.inr (hk hg).symm
    | false => exact Or.inl (hd hg).symm
  · rintro pre e post rfl hpost hpre
    rw [h1, List.map_append, List.map_cons] at h7
    obtain ⟨mid, m1, m2⟩ := h7.split
    cases m2 with
    | cons c1 c2 =>
      rw [c2.unchanged e.kill (by
        intro x hx
        obtain ⟨e', he', rfl⟩ := List.mem_map.1 hx
        exact hpost e' he')]
      rw [show e.kill = e.pair.2 from rfl, c1.2.1]
      refine m1.unchanged e.dup ?_
      intro x hx
      obtain ⟨e', he', rfl⟩ := List.mem_map.1 hx
      rcases hpre with ht | hp
      · rw [← ht]
        rw [List.pairwise_append] at h5
        exact fun hk => h5.2.2 e' he' e (by simp) hk.symm
      · exact hp e' he'

/-- Rates that are the values of the walkers themselves, every event with random number 0 accepted. -/
def valueBd : BdCfg Int Int Nat where
  calcBetas := id
  gt0 := fun b => decide (0 < b)
  lt0 := fun b => decide (b < 0)
  accept := fun u _ => u == 0
  recalcProbs := false

theorem valueBd_lawful : valueBd.Lawful := fun _ => rfl

/-- Random numbers 0 for the walkers of the list `acc` and 1 for the others, no shuffling, and the integers of the
state one after the other. -/
def scriptRng (acc : List Nat) : RngOps (List Nat) Nat where
  random := fun n r => ((List.range n).map (fun i => if i ∈ acc then 0 else 1), r)
  shuffle := fun l r => (l, r)
  integers := fun n r => (min (r.headD 0) (n - 1), r.tail)

theorem scriptRng_lawful (acc : List Nat) : (scriptRng acc).Lawful where
  random_length := fun n r => by simp [scriptRng]
  shuffle_perm := fun l r => List.Perm.refl _
  integers_lt := fun n r h => by simp only [scriptRng]; omega

/-- A step with these rates and random numbers. -/
def valueStep (acc script : List Nat) (ps : List Int) : Except PyErr (List (Nat × Nat) × List Int) :=
  (doBirthDeath valueBd (scriptRng acc) ⟨ps, script, ⟨0, 0, 0, 0⟩⟩).map (fun x => (x.1, x.2.particles))

/-- C103 is false: the walkers 0 and 1 (rates 1 and 2) are both killed, walker 0 is replaced by a copy of walker 1,
and then walker 1 by a copy of walker 0, which is its own copy by now. Walker 1 survives although it was selected to
be killed and the event names walker 0. -/
theorem bulk_copy_false : valueStep [0, 1] [0, 0] [1, 2, -3] = .ok ([(1, 0), (0, 1)], [2, 2, -3]) := by decide +kernel

/-- C103 is false: walker 1 is killed twice in the same step, by the walkers 0 and 2; the first replacement is lost. -/
theorem bulk_twice_false : valueStep [0, 2] [0, 1] [-1, 3, -2] = .ok ([(0, 1), (2, 1)], [-1, -2, -2]) := by
  decide +kernel

/-- The hypotheses of `bulk_copy_partial` are met by a step with an event of both kinds. -/
example : valueStep [0, 2] [0, 1] [1, 3, -4] = .ok ([(1, 0), (2, 1)], [3, -4, -4]) := by decide +kernel

end Bdld
