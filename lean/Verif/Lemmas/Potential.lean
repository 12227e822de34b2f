import Verif.Model.Potential
import Verif.Lemmas.Except
import Mathlib.Data.List.Nodup
import Mathlib.Order.Basic

/-
Helper lemmas for `Props/Potential.lean`: a loop that updates one coordinate after the other acts on each
coordinate separately.
-/

namespace Bdld

/-- The loop `for i in l`, where the body replaces entry `i` of both arrays by `h i`. -/
theorem foldlM_coords {F : Type} {d : Nat}
    (step : (Fin d → F) × (Fin d → F) → Fin d → Except PyErr ((Fin d → F) × (Fin d → F)))
    (h : Fin d → F → F → F × F) (l : List (Fin d)) (hl : l.Nodup)
    (hs : ∀ i ∈ l, ∀ s, step s i = .ok (Function.update s.1 i (h i (s.1 i) (s.2 i)).1,
      Function.update s.2 i (h i (s.1 i) (s.2 i)).2)) :
    ∀ s, l.foldlM step s = .ok (fun i => if i ∈ l then (h i (s.1 i) (s.2 i)).1 else s.1 i,
      fun i => if i ∈ l then (h i (s.1 i) (s.2 i)).2 else s.2 i) := by
  induction l with
  | nil => intro s; simp [pure_eq_ok]
  | cons a l ih =>
    intro s
    rw [List.foldlM_cons, hs a (by simp), ok_bind, ih (List.nodup_cons.1 hl).2 (fun i hi => hs i (by simp [hi]))]
    have ha : a ∉ l := (List.nodup_cons.1 hl).1
    congr 1
    refine Prod.ext (funext fun i => ?_) (funext fun i => ?_)
    all_goals
      by_cases hia : i = a
      · subst hia; simp [ha]
      · simp [hia]

/-- Without enough ranges the loop raises `IndexError`. -/
theorem foldlM_index_error {F : Type} {d : Nat}
    (step : (Fin d → F) × (Fin d → F) → Fin d → Except PyErr ((Fin d → F) × (Fin d → F)))
    (l : List (Fin d)) (h : ∀ i s, (∃ s', step s i = .ok s') ∨ step s i = .error .indexError)
    (hb : ∃ i ∈ l, ∀ s, step s i = .error .indexError) (s) :
    l.foldlM step s = .error .indexError := by
  induction l generalizing s with
  | nil => obtain ⟨i, hi, _⟩ := hb; simp at hi
  | cons a l ih =>
    rw [List.foldlM_cons]
    rcases h a s with ⟨s', hs'⟩ | he
    · rw [hs', ok_bind]
      apply ih
      obtain ⟨i, hi, he⟩ := hb
      rcases List.mem_cons.1 hi with rfl | hi
      · rw [he s] at hs'; exact absurd hs' (by simp)
      · exact ⟨i, hi, he⟩
    · rw [he, error_bind]

/-- Effect of the reflective boundary on one coordinate. -/
def reflect1 {F : Type} [LT F] [DecidableLT F] [Neg F] (r : F × F) (x m : F) : F × F :=
  if x < r.1 then (r.1, -m) else if r.2 < x then (r.2, -m) else (x, m)

/-- Effect of the periodic boundary on one coordinate. -/
def wrap1 {F : Type} [LT F] [DecidableLT F] [Add F] [Sub F] (r : F × F) (x m : F) : F × F :=
  if x < r.1 then (x + (r.2 - r.1), m) else if r.2 < x then (x - (r.2 - r.1), m) else (x, m)

theorem applyReflective_eq {F : Type} [LT F] [DecidableLT F] [Neg F] {d : Nat} (ranges : List (F × F))
    (hr : d ≤ ranges.length) (pos mom : Fin d → F) :
    applyReflective ranges pos mom =
      .ok (fun i => (reflect1 (ranges.get (i.castLE hr)) (pos i) (mom i)).1,
        fun i => (reflect1 (ranges.get (i.castLE hr)) (pos i) (mom i)).2) := by
  unfold applyReflective
  rw [foldlM_coords (reflectStep ranges) (fun i => reflect1 (ranges.get (i.castLE hr))) _ (List.nodup_finRange d)]
  · simp
  · intro i _ s
    have hi : ranges[i.val]? = some (ranges.get (i.castLE hr)) := by
      rw [List.getElem?_eq_getElem (by omega)]; rfl
    unfold reflectStep reflect1
    rw [hi]
    dsimp only
    split
    · rfl
    · split
      · rfl
      · simp

theorem applyPeriodic_eq {F : Type} [LT F] [DecidableLT F] [Add F] [Sub F] {d : Nat} (ranges : List (F × F))
    (hr : d ≤ ranges.length) (pos mom : Fin d → F) :
    applyPeriodic ranges pos mom =
      .ok (fun i => (wrap1 (ranges.get (i.castLE hr)) (pos i) (mom i)).1,
        fun i => (wrap1 (ranges.get (i.castLE hr)) (pos i) (mom i)).2) := by
  unfold applyPeriodic
  rw [foldlM_coords (periodicStep ranges) (fun i => wrap1 (ranges.get (i.castLE hr))) _ (List.nodup_finRange d)]
  · simp
  · intro i _ s
    have hi : ranges[i.val]? = some (ranges.get (i.castLE hr)) := by
      rw [List.getElem?_eq_getElem (by omega)]; rfl
    unfold periodicStep wrap1
    rw [hi]
    dsimp only
    split
    · simp
    · split
      · simp
      · simp

theorem wrap1_mom {F : Type} [LT F] [DecidableLT F] [Add F] [Sub F] (r : F × F) (x m : F) :
    (wrap1 r x m).2 = m := by
  unfold wrap1; split
  · rfl
  · split <;> rfl

theorem applyReflective_index_error {F : Type} [LT F] [DecidableLT F] [Neg F] {d : Nat} (ranges : List (F × F))
    (hr : ranges.length < d) (pos mom : Fin d → F) :
    applyReflective ranges pos mom = .error .indexError := by
  apply foldlM_index_error
  · intro i s
    unfold reflectStep
    rcases h : ranges[i.val]? with _ | r
    · exact Or.inr rfl
    · left; dsimp only; split
      · exact ⟨_, rfl⟩
      · split <;> exact ⟨_, rfl⟩
  · refine ⟨⟨ranges.length, hr⟩, List.mem_finRange _, fun s => ?_⟩
    unfold reflectStep
    simp

theorem applyPeriodic_index_error {F : Type} [LT F] [DecidableLT F] [Add F] [Sub F] {d : Nat} (ranges : List (F × F))
    (hr : ranges.length < d) (pos mom : Fin d → F) :
    applyPeriodic ranges pos mom = .error .indexError := by
  apply foldlM_index_error
  · intro i s
    unfold periodicStep
    rcases h : ranges[i.val]? with _ | r
    · exact Or.inr rfl
    · left; dsimp only; split
      · exact ⟨_, rfl⟩
      · split <;> exact ⟨_, rfl⟩
  · refine ⟨⟨ranges.length, hr⟩, List.mem_finRange _, fun s => ?_⟩
    unfold periodicStep
    simp

end Bdld
