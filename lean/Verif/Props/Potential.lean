import Verif.Lemmas.Potential
import Verif.Spec.Boundary
import Mathlib.Algebra.Order.Group.Defs
import Mathlib.Algebra.Order.Ring.Rat
import Mathlib.Data.Fin.VecNotation
import Mathlib.Data.Fintype.Pi
import Mathlib.Tactic.Linarith
import Mathlib.Tactic.Ring
import Mathlib.Tactic.Abel
import Mathlib.Tactic.NormNum

/-
C28, C29, C30, C37: boundary conditions and reference free energy.
-/

namespace Bdld
open Spec

/-! ### Reflective boundary (C28) -/

/-- **C28.** In every dimension the reflective boundary condition keeps coordinates inside the range together
with their momentum, and moves the others to the nearer boundary while reversing exactly their momentum
component. -/
theorem reflective_spec {F : Type} [LinearOrder F] [Neg F] {d : Nat} (ranges : List (F × F))
    (hr : d ≤ ranges.length) (hlh : ∀ r ∈ ranges, r.1 ≤ r.2) (pos mom : Fin d → F) :
    ∃ pos' mom', applyReflective ranges pos mom = .ok (pos', mom') ∧
      ∀ i : Fin d, Reflects (ranges.get (i.castLE hr)).1 (ranges.get (i.castLE hr)).2
        (pos i) (mom i) (pos' i) (mom' i) := by
  refine ⟨_, _, applyReflective_eq ranges hr pos mom, fun i => ?_⟩
  have h := hlh _ (List.get_mem ranges (i.castLE hr))
  generalize ranges.get (i.castLE hr) = r at h
  unfold reflect1
  by_cases h1 : pos i < r.1
  · rw [if_pos h1]
    exact ⟨⟨le_rfl, h⟩, fun h2 => absurd h1 (not_lt.2 h2), fun _ => ⟨rfl, rfl⟩,
      fun h2 => absurd (lt_of_le_of_lt h h2) (not_lt.2 h1.le)⟩
  · rw [if_neg h1]
    by_cases h2 : r.2 < pos i
    · rw [if_pos h2]
      exact ⟨⟨h, le_rfl⟩, fun _ h3 => absurd h2 (not_lt.2 h3), fun h3 => absurd h3 h1, fun _ => ⟨rfl, rfl⟩⟩
    · rw [if_neg h2]
      exact ⟨⟨not_lt.1 h1, not_lt.1 h2⟩, fun _ _ => ⟨rfl, rfl⟩, fun h3 => absurd h3 h1, fun h3 => absurd h3 h2⟩

/-- Position 8 in a range (0, 4) is set to 4 and the momentum is reversed, position 2 is kept. -/
example : applyReflective [((0 : Int), 4), (0, 4)] ![8, 2] ![3, 4] = .ok (![4, 2], ![-3, 4]) := by
  rw [applyReflective_eq _ (by decide)]
  exact congrArg Except.ok (Prod.ext (funext (by decide)) (funext (by decide)))

/-- **C28.** A second application changes nothing. -/
theorem reflective_idempotent {F : Type} [LinearOrder F] [Neg F] {d : Nat} (ranges : List (F × F))
    (hr : d ≤ ranges.length) (hlh : ∀ r ∈ ranges, r.1 ≤ r.2) (pos mom pos' mom' : Fin d → F)
    (h : applyReflective ranges pos mom = .ok (pos', mom')) :
    applyReflective ranges pos' mom' = .ok (pos', mom') := by
  obtain ⟨p1, m1, h1, s1⟩ := reflective_spec ranges hr hlh pos mom
  rw [h] at h1
  obtain ⟨rfl, rfl⟩ : pos' = p1 ∧ mom' = m1 := by simpa using h1
  obtain ⟨p2, m2, h2, s2⟩ := reflective_spec ranges hr hlh pos' mom'
  rw [h2]
  have h3 : p2 = pos' ∧ m2 = mom' := by
    constructor
    all_goals
      funext i
      have := (s2 i).keep (s1 i).inside.1 (s1 i).inside.2
    · exact this.1
    · exact this.2
  rw [h3.1, h3.2]

/-- **C28.** With fewer ranges than dimensions both boundary conditions raise `IndexError`. -/
theorem boundary_index_error {F : Type} [LinearOrder F] [AddGroup F] {d : Nat} (ranges : List (F × F))
    (hr : ranges.length < d) (pos mom : Fin d → F) :
    applyReflective ranges pos mom = .error .indexError ∧ applyPeriodic ranges pos mom = .error .indexError :=
  ⟨applyReflective_index_error ranges hr pos mom, applyPeriodic_index_error ranges hr pos mom⟩

example : ([((0 : ℚ), 1)] : List (ℚ × ℚ)).length < 2 := by decide

/-! ### Periodic boundary (C29) -/

/-- **C29.** The momentum is unchanged, and every coordinate is shifted by at most one range length; it is in
the range afterwards exactly if it was at most one range length away. (Missing for C29: coordinates farther
away.) -/
theorem periodic_spec_partial {F : Type} [AddCommGroup F] [LinearOrder F] [IsOrderedAddMonoid F] {d : Nat}
    (ranges : List (F × F)) (hr : d ≤ ranges.length) (hlh : ∀ r ∈ ranges, r.1 < r.2) (pos mom : Fin d → F) :
    ∃ pos' mom', applyPeriodic ranges pos mom = .ok (pos', mom') ∧
      ∀ i : Fin d,
        let lo := (ranges.get (i.castLE hr)).1
        let hi := (ranges.get (i.castLE hr)).2
        (lo - (hi - lo) ≤ pos i ∧ pos i ≤ hi + (hi - lo) ↔ Wraps lo hi (pos i) (mom i) (pos' i) (mom' i)) ∧
        (lo ≤ pos i → pos i ≤ hi → pos' i = pos i) ∧
        (∃ z : Int, z.natAbs ≤ 1 ∧ pos' i = pos i + z • (hi - lo)) ∧ mom' i = mom i := by
  refine ⟨_, _, applyPeriodic_eq ranges hr pos mom, fun i => ?_⟩
  have h := hlh _ (List.get_mem ranges (i.castLE hr))
  generalize ranges.get (i.castLE hr) = r at h
  dsimp only
  generalize pos i = x
  generalize mom i = m
  unfold wrap1
  have hL : 0 < r.2 - r.1 := sub_pos.2 h
  by_cases h1 : x < r.1
  · rw [if_pos h1]
    have e1 : x + (r.2 - r.1) ≤ r.2 := by
      calc x + (r.2 - r.1) ≤ r.1 + (r.2 - r.1) := by gcongr
        _ = r.2 := by abel
    have e2 : r.1 ≤ x + (r.2 - r.1) ↔ r.1 - (r.2 - r.1) ≤ x := by rw [sub_le_iff_le_add]
    have e3 : x ≤ r.2 + (r.2 - r.1) := (h1.le.trans h.le).trans (le_add_of_nonneg_right hL.le)
    refine ⟨⟨fun ha => ⟨⟨e2.2 ha.1, e1⟩, ⟨1, by simp⟩, rfl⟩, fun hw => ⟨e2.1 hw.inside.1, e3⟩⟩,
      fun h2 => absurd h1 (not_lt.2 h2), ⟨1, by simp, by simp⟩, rfl⟩
  · rw [if_neg h1]
    by_cases h2 : r.2 < x
    · rw [if_pos h2]
      have e1 : r.1 ≤ x - (r.2 - r.1) := by
        rw [le_sub_iff_add_le]
        calc r.1 + (r.2 - r.1) = r.2 := by abel
          _ ≤ x := h2.le
      have e2 : x - (r.2 - r.1) ≤ r.2 ↔ x ≤ r.2 + (r.2 - r.1) := by rw [sub_le_iff_le_add]
      have e3 : r.1 - (r.2 - r.1) ≤ x := (sub_le_self _ hL.le).trans (not_lt.1 h1)
      refine ⟨⟨fun ha => ⟨⟨e1, e2.2 ha.2⟩, ⟨-1, by simp [sub_eq_add_neg]⟩, rfl⟩,
        fun hw => ⟨e3, e2.1 hw.inside.2⟩⟩,
        fun _ h3 => absurd h2 (not_lt.2 h3), ⟨-1, by simp, by simp [sub_eq_add_neg]⟩, rfl⟩
    · rw [if_neg h2]
      have h1' := not_lt.1 h1
      have h2' := not_lt.1 h2
      exact ⟨⟨fun _ => ⟨⟨h1', h2'⟩, ⟨0, by simp⟩, rfl⟩,
        fun _ => ⟨(sub_le_self _ hL.le).trans h1', h2'.trans (le_add_of_nonneg_right hL.le)⟩⟩,
        fun _ _ => rfl, ⟨0, by simp, by simp⟩, rfl⟩

/-- A coordinate just above the range is moved to the other side. -/
example : applyPeriodic [((0 : Int), 4)] ![5] ![3] = .ok (![1], ![3]) := by
  rw [applyPeriodic_eq _ (by decide)]
  exact congrArg Except.ok (Prod.ext (funext (by decide)) (funext (by decide)))

/-- **C29 is false:** a particle that is more than one range length away is not brought back into the range
by the periodic boundary condition. -/
theorem periodic_false : ¬ ∀ (ranges : List (Int × Int)) (pos mom pos' mom' : Fin 1 → Int),
    (∀ r ∈ ranges, r.1 < r.2) → applyPeriodic ranges pos mom = .ok (pos', mom') →
    ∀ r, ranges[0]? = some r → Wraps r.1 r.2 (pos 0) (mom 0) (pos' 0) (mom' 0) := by
  intro h
  have h1 : applyPeriodic [((0 : Int), 4)] ![10] ![3] = .ok (![6], ![3]) := by
    rw [applyPeriodic_eq _ (by decide)]
    exact congrArg Except.ok (Prod.ext (funext (by decide)) (funext (by decide)))
  have h2 := (h _ _ _ _ _ (by decide) h1 (0, 4) rfl).inside.2
  revert h2
  decide +kernel

/-! ### Selection of the boundary condition (C30) -/

/-- **C30.** The recognised option values are exactly "reflective" and "periodic". -/
theorem bc_option (opt : Option String) :
    (bcOfOption opt = some .reflective ↔ opt = some "reflective") ∧
    (bcOfOption opt = some .periodic ↔ opt = some "periodic") := by
  unfold bcOfOption
  by_cases h1 : opt = some "reflective"
  · subst h1; simp
  · rw [if_neg h1]
    by_cases h2 : opt = some "periodic"
    · subst h2; simp
    · rw [if_neg h2]; simp [h1, h2]

/-- **C30.** With a missing or any other option value, positions and momenta are not altered, also without
any ranges. With the two recognised values the corresponding function is applied. -/
theorem bc_applied {F : Type} [LinearOrder F] [AddGroup F] {d : Nat} (p : Potential F d)
    (opt : Option String) (pos mom : Fin d → F) :
    (opt ≠ some "reflective" → opt ≠ some "periodic" → (p.withBcOption opt).applyBc pos mom = .ok (pos, mom)) ∧
    (opt = some "reflective" → (p.withBcOption opt).applyBc pos mom = applyReflective p.ranges pos mom) ∧
    (opt = some "periodic" → (p.withBcOption opt).applyBc pos mom = applyPeriodic p.ranges pos mom) := by
  refine ⟨fun h1 h2 => ?_, ?_, ?_⟩
  · unfold Potential.applyBc Potential.withBcOption bcOfOption
    simp [h1, h2]
  · rintro rfl; rfl
  · rintro rfl; rfl

/-- A misspelled option value switches the boundary condition off silently. -/
example : bcOfOption (some "Reflective") = none := by decide

/-! ### Reference (C37) -/

theorem foldl_min_spec {F : Type} [LinearOrder F] (xs : List F) : ∀ x : F,
    let m := xs.foldl (fun m y => if y < m then y else m) x
    m ∈ x :: xs ∧ ∀ y ∈ x :: xs, m ≤ y := by
  induction xs with
  | nil => intro x; simp
  | cons a xs ih =>
    intro x
    dsimp only
    rw [List.foldl_cons]
    by_cases h : a < x
    · rw [if_pos h]
      obtain ⟨h1, h2⟩ := ih a
      refine ⟨List.mem_cons_of_mem _ h1, fun y hy => ?_⟩
      rcases List.mem_cons.1 hy with rfl | hy
      · exact (h2 a (by simp)).trans h.le
      · exact h2 y hy
    · rw [if_neg h]
      obtain ⟨h1, h2⟩ := ih x
      refine ⟨?_, fun y hy => ?_⟩
      · rcases List.mem_cons.1 h1 with h1 | h1
        · rw [h1]; simp
        · simp [h1]
      · rcases List.mem_cons.1 hy with rfl | hy
        · exact h2 y (by simp)
        · rcases List.mem_cons.1 hy with rfl | hy
          · exact (h2 x (by simp)).trans (not_lt.1 h)
          · exact h2 y (by simp [hy])

theorem npMin_spec {F : Type} [LinearOrder F] (l : List F) (h : l ≠ []) :
    ∃ m, npMin l = .ok m ∧ m ∈ l ∧ ∀ y ∈ l, m ≤ y := by
  cases l with
  | nil => exact absurd rfl h
  | cons a l => exact ⟨_, rfl, foldl_min_spec l a⟩

/-- **C37.** The reference has one entry per position, its minimum is exactly zero, and differences of
energies are preserved. An empty list raises `ValueError`. -/
theorem reference_spec {F : Type} [AddCommGroup F] [LinearOrder F] [IsOrderedAddMonoid F] {d : Nat}
    (p : Potential F d) (pos : List (Fin d → F)) :
    (pos = [] → calculateReference p pos true = .error .valueError) ∧
    (pos ≠ [] → ∃ ref, calculateReference p pos true = .ok ref ∧ ref.length = pos.length ∧
      (∀ x ∈ ref, 0 ≤ x) ∧ (0 : F) ∈ ref ∧
      ∀ (i j : Nat) (a b x y), pos[i]? = some a → pos[j]? = some b → ref[i]? = some x → ref[j]? = some y →
        x - y = p.energy a - p.energy b) := by
  constructor
  · rintro rfl; rfl
  · intro h
    obtain ⟨m, h1, h2, h3⟩ := npMin_spec (pos.map p.energy) (by simpa using h)
    refine ⟨(pos.map p.energy).map (· - m), ?_, by simp, ?_, ?_, ?_⟩
    · unfold calculateReference
      simp only [if_true, h1, ok_bind, pure_eq_ok]
    · intro x hx
      obtain ⟨y, hy, rfl⟩ := List.mem_map.1 hx
      exact sub_nonneg.2 (h3 y hy)
    · exact List.mem_map.2 ⟨m, h2, sub_self m⟩
    · intro i j a b x y ha hb hx hy
      simp only [List.getElem?_map, ha, hb, Option.map_some, Option.some.injEq] at hx hy
      rw [← hx, ← hy]
      abel

/-- A one-dimensional potential `x^2 + 5` at the positions 1 and 3. -/
example : calculateReference (d := 1) (F := ℚ)
    ⟨fun x => x 0 ^ 2 + 5, fun x k => -2 * x k, fun x => (x 0 ^ 2 + 5, fun k => -2 * x k), [], none⟩
    [fun _ => 1, fun _ => 3] true = .ok [0, 8] := by decide +kernel

/-- **C37.** Without shifting the energies themselves are returned. -/
theorem reference_plain {F : Type} [LinearOrder F] [Sub F] {d : Nat} (p : Potential F d)
    (pos : List (Fin d → F)) : calculateReference p pos false = .ok (pos.map p.energy) := rfl

end Bdld
