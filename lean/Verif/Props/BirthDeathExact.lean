import Verif.Spec.Selection
import Verif.Props.BirthDeath

/-
C92: a birth-death step is the function of rates and random numbers described in `Spec/Selection.lean`.
-/

namespace Bdld

open Spec

variable {P B U R : Type}

theorem otherWalker_skip (i x : Nat) : skipExcluded x i = otherWalker i x := by
  unfold skipExcluded otherWalker
  split <;> split <;> omega

theorem performMove_copy (ps ps' : List P) (e : BdEvent) (h : performMove ps e.pair = .ok ps') :
    ps' = copyWalker ps e := by
  obtain ⟨t, a, b⟩ := e
  change performMove ps (a, b) = .ok ps' at h
  unfold performMove at h
  unfold copyWalker
  split at h
  · cases h
  · rename_i p hp
    simp only at hp ⊢
    rw [hp]
    split at h
    · cases h
      rfl
    · cases h

theorem performMoves_copy : ∀ (es : List BdEvent) (ps ps' : List P),
    performMoves ps (es.map BdEvent.pair) = .ok ps' → ps' = es.foldl copyWalker ps
  | [], ps, ps', h => by cases h; rfl
  | e :: es, ps, ps', h => by
    unfold performMoves at h
    rw [List.map_cons, List.foldlM_cons] at h
    obtain ⟨q, hq, h⟩ := bind_ok h
    rw [performMove_copy _ _ _ hq] at h
    exact performMoves_copy es _ _ h

/-- State of the generator after `k` integers. -/
def intState (ops : RngOps R U) (n : Nat) (r : R) (k : Nat) : R := (fun r => (ops.integers (n - 1) r).2)^[k] r

/-- Sign of the rate with this number. -/
def positiveAt (c : BdCfg P B U) (beta : List B) (i : Nat) : Bool := (beta[i]?).any c.gt0

theorem bulk_loop (c : BdCfg P B U) (ops : RngOps R U) (n : Nat) (beta : List B) (r : R) (st0 : BdStats) :
    ∀ (order : List Nat) (done : List BdEvent) (l l' : BulkLoop R), 
    l.dupList = done.map (·.dup) → l.killList = done.map (·.kill) → l.rng = intState ops n r done.length →
    l.stats = { st0 with
      killCount := st0.killCount + done.countP (fun e => positiveAt c beta e.trigger)
      dupCount := st0.dupCount + done.countP (fun e => !positiveAt c beta e.trigger) } →
    order.foldlM (bulkStep c ops n beta) l = .ok l' →
    let recs := bulkEvents (positiveAt c beta) (fun k => (ops.integers (n - 1) (intState ops n r k)).1) order done
    l'.dupList = recs.map (·.dup) ∧ l'.killList = recs.map (·.kill) ∧ l'.rng = intState ops n r recs.length ∧
    l'.stats = { st0 with
      killCount := st0.killCount + recs.countP (fun e => positiveAt c beta e.trigger)
      dupCount := st0.dupCount + recs.countP (fun e => !positiveAt c beta e.trigger) }
  | [], done, l, l', h1, h2, h3, h4, h => by
    cases h
    exact ⟨h1, h2, h3, h4⟩
  | i :: order, done, l, l', h1, h2, h3, h4, h => by
    rw [List.foldlM_cons] at h
    obtain ⟨q, hq, h⟩ := bind_ok h
    unfold bulkStep at hq
    unfold bulkEvents
    by_cases hk : i ∈ l.killList
    · rw [if_pos hk] at hq
      cases hq
      rw [h2] at hk
      rw [if_pos hk]
      exact bulk_loop c ops n beta r st0 order done l l' h1 h2 h3 h4 h
    · rw [if_neg hk] at hq
      rw [h2] at hk
      rw [if_neg hk]
      obtain ⟨o, ho, hq⟩ := bind_ok hq
      unfold randomOther at ho
      split at ho
      · cases ho
      · cases ho
        simp only [otherWalker_skip] at hq
        cases hb : beta[i]? with
        | none => rw [hb] at hq; cases hq
        | some b =>
          rw [hb] at hq
          simp only at hq
          have hp : positiveAt c beta i = c.gt0 b := by simp [positiveAt, hb]
          refine bulk_loop c ops n beta r st0 order _ q l' ?_ ?_ ?_ ?_ h
          all_goals
            rw [h3] at hq
            cases hg : c.gt0 b <;> rw [hg] at hq hp
            all_goals
              simp only [Bool.false_eq_true, if_false, if_true] at hq
              cases hq
              simp [h1, h2, h4, hp, List.countP_append, intState, Function.iterate_succ_apply',
                Nat.add_assoc]

theorem countP_index (q : B → Bool) (l : List B) :
    l.countP q = (List.range l.length).countP (fun i => (l[i]?).any q) := by
  induction l using List.reverseRecOn with
  | nil => simp
  | append_singleton l a ih =>
    rw [List.countP_append, List.length_append, List.length_singleton, List.range_succ, List.countP_append, ih]
    congr 1
    · apply List.countP_congr
      intro i hi
      rw [List.mem_range] at hi
      rw [List.getElem?_append_left hi]
    · simp

/-- C92, bulk mode: walkers, generator, counters and reported events after a step are those of the
specification. -/
theorem bd_bulk_exact {c : BdCfg P B U} (hc : c.Lawful) {ops : RngOps R U} (hm : c.recalcProbs = false)
    {s s' : BdState P R} {ev : List (Nat × Nat)} (h : doBirthDeath c ops s = .ok (ev, s')) :
    let n := s.particles.length
    let positive := positiveAt c (bdBeta c s)
    let x := ops.shuffle (acceptedIndices c (bdRand ops s) (bdBeta c s)) (ops.random n s.rng).2
    let events := bulkEvents positive (fun k => (ops.integers (n - 1) (intState ops n x.2 k)).1) x.1 []
    ev = events.map BdEvent.pair ∧ s'.particles = events.foldl copyWalker s.particles ∧
    s'.rng = intState ops n x.2 events.length ∧ s'.stats = bulkCounts positive n events s.stats := by
  intro n positive x events
  have hlen : (bdBeta c s).length = n := hc _
  have hcount : (bdBeta c s).countP c.gt0 = (List.range n).countP positive := by
    rw [← hlen]
    exact countP_index c.gt0 (bdBeta c s)
  have hcount' : n - (bdBeta c s).countP c.gt0 = (List.range n).countP (fun i => !positive i) := by
    have := List.length_eq_countP_add_countP positive (l := List.range n)
    rw [List.length_range] at this
    have e : (List.range n).countP (fun a => decide ¬positive a = true) =
        (List.range n).countP (fun i => !positive i) := by
      congr 1
      funext i
      cases positive i <;> rfl
    rw [e] at this
    omega
  have h' : doBulk c ops s (bdBeta c s) (bdRand ops s) (ops.random n s.rng).2 = .ok (ev, s') := by
    rw [← h]
    unfold doBirthDeath
    rw [hm]
    rfl
  unfold doBulk at h'
  obtain ⟨l, hl, h'⟩ := bind_ok h'
  obtain ⟨ps, hps, h'⟩ := bind_ok h'
  cases h'
  obtain ⟨h1, h2, h3, h4⟩ := bulk_loop c ops n (bdBeta c s) x.2 _ x.1 [] _ l rfl rfl rfl rfl hl
  have hz : l.dupList.zip l.killList = events.map BdEvent.pair := by
    rw [h1, h2, List.zip_map']
    rfl
  rw [hz] at hps ⊢
  refine ⟨rfl, performMoves_copy _ _ _ hps, h3, ?_⟩
  simp only
  rw [h4]
  simp only [bulkCounts, hcount, ← hcount']
  rfl

/-- The random number of the walker is accepted for its rate. -/
def selectedAt (c : BdCfg P B U) (rand : List U) (ps : List P) (i : Nat) : Bool :=
  match rand[i]?, (c.calcBetas ps)[i]? with
  | some u, some b => c.accept u b
  | _, _ => false

theorem recalc_loop (c : BdCfg P B U) (ops : RngOps R U) (n : Nat) (rand : List U) (r : R) (st0 : BdStats)
    (hz : ∀ u ∈ rand, ∀ b, c.accept u b = true → c.gt0 b = true ∨ c.lt0 b = true) :
    ∀ (order : List Nat) (done : List Turn) (l l' : RecalcLoop P B R),
    l.beta = c.calcBetas l.particles → l.events = (eventsOf done).map BdEvent.pair →
    l.rng = intState ops n r (eventsOf done).length → l.stats = recalcCounts done st0 →
    order.foldlM (recalcStep c ops n rand) l = .ok l' →
    let x := recalcTurns (selectedAt c rand) (fun ps i => ((c.calcBetas ps)[i]?).any c.gt0)
      (fun ps i => ((c.calcBetas ps)[i]?).any c.lt0)
      (fun k => (ops.integers (n - 1) (intState ops n r k)).1) order l.particles done
    l'.particles = x.1 ∧ l'.events = (eventsOf x.2).map BdEvent.pair ∧
    l'.rng = intState ops n r (eventsOf x.2).length ∧ l'.stats = recalcCounts x.2 st0
  | [], done, l, l', _, h2, h3, h4, h => by
    cases h
    exact ⟨rfl, h2, h3, h4⟩
  | i :: order, done, l, l', h1, h2, h3, h4, h => by
    rw [List.foldlM_cons] at h
    obtain ⟨q, hq, h⟩ := bind_ok h
    unfold recalcStep at hq
    unfold recalcTurns
    split at hq
    · rename_i b u hb hu
      rw [h1] at hb
      have hsel : selectedAt c rand l.particles i = c.accept u b := by simp [selectedAt, hu, hb]
      simp only [hsel, hb, Option.any_some]
      have hatt : ∀ e : Option BdEvent, recalcCounts (done ++ [⟨c.gt0 b, c.lt0 b, e⟩]) st0 =
          { recalcAttempts c b l.stats with
            killCount := l.stats.killCount + if e.isSome && c.gt0 b then 1 else 0
            dupCount := l.stats.dupCount + if e.isSome && !c.gt0 b then 1 else 0 } := by
        intro e
        rw [h4]
        cases hg : c.gt0 b <;> cases hl : c.lt0 b <;> cases e <;>
          simp [recalcAttempts, recalcCounts, hg, hl, List.countP_append, Nat.add_assoc]
      cases ha : c.accept u b with
      | false =>
        rw [ha] at hq
        simp only [Bool.false_eq_true, if_false] at hq ⊢
        cases hq
        have he : eventsOf (done ++ [⟨c.gt0 b, c.lt0 b, none⟩]) = eventsOf done := by simp [eventsOf]
        refine recalc_loop c ops n rand r st0 hz order _ { l with stats := recalcAttempts c b l.stats } l' h1
          (by rw [he]; exact h2) (by rw [he]; exact h3) ?_ h
        rw [hatt]
        cases hg : c.gt0 b <;> cases hl : c.lt0 b <;> simp [recalcAttempts, hg, hl]
      | true =>
        rw [ha] at hq
        simp only [if_true] at hq ⊢
        obtain ⟨o, ho, hq⟩ := bind_ok hq
        unfold randomOther at ho
        split at ho
        · cases ho
        · cases ho
          simp only [otherWalker_skip, h3] at hq
          generalize hj : otherWalker i (ops.integers (n - 1) (intState ops n r (eventsOf done).length)).1 = j at hq ⊢
          have hev : (recalcEvent c b i j l.currEvent (recalcAttempts c b l.stats)).1 =
              some (if c.gt0 b then (⟨i, i, j⟩ : BdEvent) else ⟨i, j, i⟩).pair := by
            unfold recalcEvent
            cases hg : c.gt0 b with
            | true => simp [BdEvent.pair]
            | false =>
              have : c.lt0 b = true := (hz u (List.mem_of_getElem? hu) b ha).resolve_left (by simp [hg])
              simp [BdEvent.pair, this]
          rw [hev] at hq
          obtain ⟨ps, hps, hq⟩ := bind_ok hq
          cases hq
          rw [← performMove_copy _ _ _ hps]
          have he : ∀ e : BdEvent, eventsOf (done ++ [⟨c.gt0 b, c.lt0 b, some e⟩]) = eventsOf done ++ [e] := by
            intro e; simp [eventsOf]
          refine recalc_loop c ops n rand r st0 hz order _ _ l' rfl ?_ ?_ ?_ h
          · rw [he, List.map_append, ← h2]; rfl
          · rw [he]
            simp [intState, Function.iterate_succ_apply']
          · rw [hatt]
            unfold recalcEvent
            cases hg : c.gt0 b with
            | true => cases hl : c.lt0 b <;> simp [recalcAttempts, hg, hl]
            | false =>
              have hl : c.lt0 b = true := (hz u (List.mem_of_getElem? hu) b ha).resolve_left (by simp [hg])
              simp [recalcAttempts, hg, hl]
    · cases hq

/-- C92, recalculating mode: walkers, generator, counters and reported events after a step are those of the
specification. (Assumption as in `bd_total_recalc_partial`: an event is never accepted for a rate of exactly
zero.) -/
theorem bd_recalc_exact {c : BdCfg P B U} {ops : RngOps R U} (hm : c.recalcProbs = true)
    {s s' : BdState P R} {ev : List (Nat × Nat)}
    (hz : ∀ u ∈ bdRand ops s, ∀ b, c.accept u b = true → c.gt0 b = true ∨ c.lt0 b = true)
    (h : doBirthDeath c ops s = .ok (ev, s')) :
    let n := s.particles.length
    let x := ops.shuffle (List.range n) (ops.random n s.rng).2
    let y := recalcTurns (selectedAt c (bdRand ops s)) (fun ps i => ((c.calcBetas ps)[i]?).any c.gt0)
      (fun ps i => ((c.calcBetas ps)[i]?).any c.lt0)
      (fun k => (ops.integers (n - 1) (intState ops n x.2 k)).1) x.1 s.particles []
    ev = (eventsOf y.2).map BdEvent.pair ∧ s'.particles = y.1 ∧
    s'.rng = intState ops n x.2 (eventsOf y.2).length ∧ s'.stats = recalcCounts y.2 s.stats := by
  intro n x y
  have h' : doRecalc c ops s (bdBeta c s) (bdRand ops s) (ops.random n s.rng).2 = .ok (ev, s') := by
    rw [← h]
    unfold doBirthDeath
    rw [hm]
    rfl
  unfold doRecalc at h'
  obtain ⟨l, hl, h'⟩ := bind_ok h'
  cases h'
  obtain ⟨h1, h2, h3, h4⟩ := recalc_loop c ops n (bdRand ops s) x.2 s.stats hz x.1 [] _ l rfl rfl rfl rfl hl
  exact ⟨h2, h1, h3, h4⟩

/-! ### Examples -/

/-- The step of the first example of `Props/BirthDeath.lean` from the specification: walker 0 is killed and replaced
by a copy of walker 2, walker 1 is duplicated onto walker 2. -/
example : bulkEvents (fun i => i == 0) (fun _ => 1) [0, 1] [] = [⟨0, 2, 0⟩, ⟨1, 1, 2⟩] ∧
    [⟨0, 2, 0⟩, ⟨1, 1, 2⟩].foldl copyWalker [13, 8, 10] = [10, 8, 8] ∧
    bulkCounts (fun i => i == 0) 3 [⟨0, 2, 0⟩, ⟨1, 1, 2⟩] ⟨0, 0, 0, 0⟩ = ⟨1, 2, 1, 1⟩ := by decide

/-- A walker that has been killed does nothing. -/
example : bulkEvents (fun _ => false) (fun _ => 0) [0, 1] [] = [⟨0, 0, 1⟩] := by decide

/-- The same for the code, by the theorem. -/
example : ∃ s', doBirthDeath (exBd false) exRng ⟨[13, 8, 10], 1, ⟨0, 0, 0, 0⟩⟩ = .ok ([(2, 0), (1, 2)], s') ∧
    s'.particles = [10, 8, 8] ∧ s'.stats = ⟨1, 2, 1, 1⟩ := by
  obtain ⟨⟨ev, s'⟩, h⟩ : ∃ x, doBirthDeath (exBd false) exRng ⟨[13, 8, 10], 1, ⟨0, 0, 0, 0⟩⟩ = .ok x := ⟨_, rfl⟩
  obtain ⟨h1, h2, _, h4⟩ := bd_bulk_exact (exBd_lawful false) rfl h
  rw [h, h1]
  refine ⟨s', rfl, ?_, ?_⟩
  · rw [h2]; decide +kernel
  · rw [h4]; decide +kernel

/-- The recalculating mode: the walker with positive rate is duplicated; after that walker 1 has the same rate and
is duplicated, too. -/
example : recalcTurns (fun ps i => decide (1 ≤ ((ps.getD i 0 : Int) - 10).natAbs)) (fun ps i => decide (0 < ps.getD i 0 - 10))
      (fun ps i => decide (ps.getD i 0 - 10 < 0)) (fun _ => 0) [0, 1] [13, 10] [] =
    ([13, 13], [⟨true, false, some ⟨0, 0, 1⟩⟩, ⟨true, false, some ⟨1, 1, 0⟩⟩]) := by decide +kernel

end Bdld
