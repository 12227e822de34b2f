import Verif.Model.BirthDeath
import Verif.Lemmas.Except

/-
Birth-death commutes with a map of the particles that leaves the rates and the decisions unchanged.
-/

namespace Bdld

variable {P Q B U R : Type}

/-- Two configurations of birth-death that agree on particles related by `f`, as long as all particles are in `S`. -/
structure MappedDecisions (f : P → Q) (S : P → Prop) (c : BdCfg P B U) (c' : BdCfg Q B U) : Prop where
  betas : ∀ ps, (∀ p ∈ ps, S p) → c'.calcBetas (ps.map f) = c.calcBetas ps
  gt0 : ∀ b, c'.gt0 b = c.gt0 b
  lt0 : ∀ b, c'.lt0 b = c.lt0 b
  accept : ∀ u b, c'.accept u b = c.accept u b
  recalc : c'.recalcProbs = c.recalcProbs

theorem performMove_map (f : P → Q) (ps : List P) (e : Nat × Nat) :
    performMove (ps.map f) e = (performMove ps e).map (List.map f) := by
  unfold performMove
  rw [List.getElem?_map, List.length_map]
  rcases ps[e.1]? with _ | p
  · rfl
  · simp only [Option.map_some]
    by_cases h : e.2 < ps.length
    · rw [if_pos h, if_pos h]
      show Except.ok _ = Except.ok _
      rw [List.map_set]
    · rw [if_neg h, if_neg h]; rfl

theorem performMoves_map (f : P → Q) : ∀ (es : List (Nat × Nat)) (ps : List P),
    performMoves (ps.map f) es = (performMoves ps es).map (List.map f)
  | [], ps => rfl
  | e :: es, ps => by
    unfold performMoves
    rw [List.foldlM_cons, List.foldlM_cons, performMove_map]
    rcases performMove ps e with err | x
    · rfl
    · exact performMoves_map f es x

/-- A move only copies particles. -/
theorem performMove_all {S : P → Prop} {ps qs : List P} {e : Nat × Nat} (h : performMove ps e = .ok qs)
    (hS : ∀ p ∈ ps, S p) : ∀ p ∈ qs, S p := by
  unfold performMove at h
  rcases he : ps[e.1]? with _ | p
  · rw [he] at h; cases h
  · rw [he] at h
    simp only at h
    by_cases hlt : e.2 < ps.length
    · rw [if_pos hlt] at h
      cases h
      intro q hq
      rcases List.mem_or_eq_of_mem_set hq with hq | rfl
      · exact hS q hq
      · exact hS _ (List.mem_of_getElem? he)
    · rw [if_neg hlt] at h; cases h

namespace MappedDecisions
variable {f : P → Q} {S : P → Prop} {c : BdCfg P B U} {c' : BdCfg Q B U} (h : MappedDecisions f S c c') (ops : RngOps R U)
include h

theorem bulkStep_eq (n : Nat) (beta : List B) : bulkStep c' ops n beta = bulkStep c ops n beta := by
  funext l i
  unfold bulkStep
  simp only [h.gt0]

theorem acceptedIndices_eq (rand : List U) (beta : List B) :
    acceptedIndices c' rand beta = acceptedIndices c rand beta := by
  unfold acceptedIndices
  simp only [h.accept]

theorem doBulk_map (s : BdState P R) (beta : List B) (rand : List U) (r : R) :
    doBulk c' ops ⟨s.particles.map f, s.rng, s.stats⟩ beta rand r
      = (doBulk c ops s beta rand r).map (fun x => (x.1, ⟨x.2.particles.map f, x.2.rng, x.2.stats⟩)) := by
  unfold doBulk
  simp only [h.bulkStep_eq, h.acceptedIndices_eq, List.length_map, funext h.gt0]
  rcases List.foldlM _ _ _ with e | l
  · rfl
  · simp only [ok_bind, performMoves_map]
    rcases performMoves _ _ with e | ps
    · rfl
    · rfl

theorem recalcStep_map (n : Nat) (rand : List U) (l : RecalcLoop P B R) (i : Nat) (hS : ∀ p ∈ l.particles, S p) :
    recalcStep c' ops n rand ⟨l.particles.map f, l.beta, l.rng, l.stats, l.currEvent, l.events⟩ i
      = (recalcStep c ops n rand l i).map
        (fun l => ⟨l.particles.map f, l.beta, l.rng, l.stats, l.currEvent, l.events⟩) := by
  unfold recalcStep
  rcases hb : l.beta[i]? with _ | b
  · rfl
  rcases hr : rand[i]? with _ | u
  · rfl
  simp only [h.accept]
  have ha : ∀ st, recalcAttempts c' b st = recalcAttempts c b st := by
    intro st; unfold recalcAttempts; simp only [h.gt0, h.lt0]
  have he : ∀ o cur st, recalcEvent c' b i o cur st = recalcEvent c b i o cur st := by
    intro o cur st; unfold recalcEvent; simp only [h.gt0, h.lt0]
  simp only [ha, he]
  by_cases hacc : c.accept u b = true
  · rw [if_pos hacc, if_pos hacc]
    rcases randomOther ops n i l.rng with e | x
    · rfl
    · simp only [ok_bind]
      rcases (recalcEvent c b i x.1 l.currEvent (recalcAttempts c b l.stats)).1 with _ | e
      · rfl
      · simp only [performMove_map]
        rcases hm : performMove l.particles e with err | ps
        · rfl
        · show Except.ok _ = Except.ok _
          simp only [h.betas ps (performMove_all hm hS)]
  · rw [if_neg hacc, if_neg hacc]
    rfl

omit h in
theorem recalcStep_all (n : Nat) (rand : List U) (l l' : RecalcLoop P B R) (i : Nat)
    (hl : recalcStep c ops n rand l i = .ok l') (hS : ∀ p ∈ l.particles, S p) : ∀ p ∈ l'.particles, S p := by
  unfold recalcStep at hl
  rcases hb : l.beta[i]? with _ | b
  · simp only [hb] at hl; cases hl
  rcases hr : rand[i]? with _ | u
  · simp only [hb, hr] at hl; cases hl
  simp only [hb, hr] at hl
  by_cases hacc : c.accept u b = true
  · rw [if_pos hacc] at hl
    rcases ho : randomOther ops n i l.rng with e | x
    · simp only [ho, error_bind] at hl; cases hl
    · simp only [ho, ok_bind] at hl
      rcases he : (recalcEvent c b i x.1 l.currEvent (recalcAttempts c b l.stats)).1 with _ | e
      · simp only [he] at hl
        cases hl
      · simp only [he] at hl
        rcases hm : performMove l.particles e with err | ps
        · simp only [hm, error_bind] at hl; cases hl
        · simp only [hm, ok_bind] at hl
          cases hl
          exact performMove_all hm hS
  · rw [if_neg hacc] at hl
    cases hl
    exact hS

theorem doRecalc_map (s : BdState P R) (beta : List B) (rand : List U) (r : R) (hS : ∀ p ∈ s.particles, S p) :
    doRecalc c' ops ⟨s.particles.map f, s.rng, s.stats⟩ beta rand r
      = (doRecalc c ops s beta rand r).map (fun x => (x.1, ⟨x.2.particles.map f, x.2.rng, x.2.stats⟩)) := by
  have hl : ∀ (is : List Nat) (n : Nat) (l : RecalcLoop P B R), (∀ p ∈ l.particles, S p) →
      is.foldlM (recalcStep c' ops n rand) ⟨l.particles.map f, l.beta, l.rng, l.stats, l.currEvent, l.events⟩
        = (is.foldlM (recalcStep c ops n rand) l).map
          (fun l => ⟨l.particles.map f, l.beta, l.rng, l.stats, l.currEvent, l.events⟩) := by
    intro is n
    induction is with
    | nil => intro l _; rfl
    | cons i is ih =>
      intro l hS
      rw [List.foldlM_cons, List.foldlM_cons, h.recalcStep_map ops n rand l i hS]
      rcases hx : recalcStep c ops n rand l i with e | x
      · rfl
      · exact ih x (recalcStep_all ops n rand l x i hx hS)
  unfold doRecalc
  simp only [List.length_map]
  have := hl (ops.shuffle (List.range s.particles.length) r).1 s.particles.length
    ⟨s.particles, beta, (ops.shuffle (List.range s.particles.length) r).2, s.stats, none, []⟩ hS
  simp only at this
  rw [this]
  rcases List.foldlM _ _ _ with e | l
  · rfl
  · rfl

/-- A birth-death step of the mapped particles is the mapped birth-death step, with the same random numbers. -/
theorem doBirthDeath_map (s : BdState P R) (hS : ∀ p ∈ s.particles, S p) :
    doBirthDeath c' ops ⟨s.particles.map f, s.rng, s.stats⟩
      = (doBirthDeath c ops s).map (fun x => (x.1, ⟨x.2.particles.map f, x.2.rng, x.2.stats⟩)) := by
  unfold doBirthDeath
  simp only [h.betas _ hS, List.length_map, h.recalc]
  by_cases hr : c.recalcProbs = true
  · rw [if_pos hr, if_pos hr]; exact h.doRecalc_map ops s _ _ _ hS
  · rw [if_neg hr, if_neg hr]; exact h.doBulk_map ops s _ _ _

theorem bdRun_map (stride : Nat) (ss : Option Nat) (s : BdState P R × BdLog) (step : Nat)
    (hS : ∀ p ∈ s.1.particles, S p) :
    bdRun c' ops stride ss (⟨s.1.particles.map f, s.1.rng, s.1.stats⟩, s.2) step
      = (bdRun c ops stride ss s step).map (fun x => (⟨x.1.particles.map f, x.1.rng, x.1.stats⟩, x.2)) := by
  unfold bdRun
  by_cases hs : stride = 0
  · rw [if_pos hs, if_pos hs]; rfl
  · rw [if_neg hs, if_neg hs]
    simp only [pure_eq_ok]
    by_cases hm : step % stride = 0
    · rw [if_pos hm, if_pos hm, h.doBirthDeath_map ops s.1 hS]
      rcases doBirthDeath c ops s.1 with e | x
      · rfl
      · rfl
    · rw [if_neg hm, if_neg hm]; rfl

end MappedDecisions

end Bdld
