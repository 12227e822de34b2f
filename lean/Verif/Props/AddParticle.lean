import Verif.Props.Langevin
import Verif.Lemmas.Ring

/-
C44 for all integers as index, also negative ones and such that are too large.
-/

namespace Bdld
open Spec

/-- Place of the element with Python index `i` in a list of `n` elements. -/
def Spec.itemPlace (n : Nat) (i : Int) : Option Nat :=
  if 0 ≤ i ∧ i < n then some i.toNat else if -n ≤ i ∧ i < 0 then some (n - (-i).toNat) else none

/-- Place at which Python inserts an element for the index `i`: before the element with this index, at the end if the index is too
large, at the beginning if it is too small. -/
def Spec.insertPlace (n : Nat) (i : Int) : Nat :=
  match Spec.itemPlace n i with
  | some k => k
  | none => if 0 ≤ i then n else 0

theorem sliceBound_insertPlace (n : Nat) (i : Int) : sliceBound n i = insertPlace n i := by
  unfold sliceBound insertPlace itemPlace
  by_cases h1 : i < 0
  · rw [if_pos h1, if_neg (by omega)]
    by_cases h2 : -(n : Int) ≤ i
    · rw [if_pos ⟨h2, h1⟩]
      simp only
      omega
    · rw [if_neg (by omega)]
      simp only
      rw [if_neg (by omega)]
      omega
  · rw [if_neg h1]
    by_cases h2 : i < n
    · rw [if_pos ⟨by omega, h2⟩]
      simp only
      omega
    · rw [if_neg (by omega), if_neg (by omega)]
      simp only
      rw [if_pos (by omega)]
      omega

theorem insertPlace_le (n : Nat) (i : Int) : insertPlace n i ≤ n := by
  rw [← sliceBound_insertPlace, sliceBound]
  split <;> omega

section
variable {F R : Type} {d : Nat}

/-- C44: for every index except -1 a particle is inserted at the same place as for the index counted from the beginning. -/
theorem add_particle_index [Zero F] (c : LdCfg F d) (s : LdState F d R) (pos : List F) (mass : F) (i : Int) (hi : i ≠ -1) :
    s.addParticle c pos mass i false = s.addParticle c pos mass (insertPlace s.particles.length i) false := by
  unfold LdState.addParticle
  split
  · simp only [Bool.false_eq_true, if_false]
    rw [if_neg (by omega)]
    unfold pyInsert
    rw [sliceBound_insertPlace, sliceBound_natCast, min_eq_left (insertPlace_le _ _)]
  · rfl

/-- C44: insertion for every index except -1 (which means the end). -/
theorem add_particle_insert_all [Zero F] (c : LdCfg F d) (s : LdState F d R) (pos : Fin d → F) (mass : F) (i : Int) (hi : i ≠ -1) :
    ∃ s', s.addParticle c (List.ofFn pos) mass i false = .ok s' ∧ s'.rng = s.rng ∧
      s'.particles.length = s.particles.length + 1 ∧
      s'.particles[insertPlace s.particles.length i]? = some (newParticle c pos mass) ∧
      (∀ j < insertPlace s.particles.length i, s'.particles[j]? = s.particles[j]?) ∧
      ∀ j ≥ insertPlace s.particles.length i, s'.particles[j + 1]? = s.particles[j]? := by
  rw [add_particle_index c s _ mass i hi]
  exact add_particle_insert c s pos mass _ (insertPlace_le _ _)

/-- C44: replacement for every index. -/
theorem add_particle_overwrite_all [Zero F] (c : LdCfg F d) (s : LdState F d R) (pos : Fin d → F) (mass : F) (i : Int) :
    s.addParticle c (List.ofFn pos) mass i true =
      match itemPlace s.particles.length i with
      | some k => .ok { s with particles := s.particles.set k (newParticle c pos mass) }
      | none => .error .indexError := by
  unfold LdState.addParticle
  rw [dif_pos (by simp)]
  have : (fun k : Fin d => (List.ofFn pos).get (k.cast (by simp))) = pos := by
    funext k; simp
  simp only [if_true, this]
  unfold pySetItem itemPlace
  by_cases h1 : 0 ≤ i ∧ i < s.particles.length
  · rw [if_pos h1, if_pos h1]
    rfl
  · rw [if_neg h1, if_neg h1]
    by_cases h2 : -(s.particles.length : Int) ≤ i ∧ i < 0
    · rw [if_pos ⟨h2.2, by omega⟩, if_pos h2, show (i + (s.particles.length : Int)).toNat = s.particles.length - (-i).toNat by omega]
      rfl
    · rw [if_neg (by omega), if_neg h2]
      rfl

/-- C44: removal for every index. -/
theorem remove_particle_all (s : LdState F d R) (i : Int) :
    s.removeParticle i =
      match itemPlace s.particles.length i with
      | some k => .ok { s with particles := s.particles.eraseIdx k }
      | none => .error .indexError := by
  unfold LdState.removeParticle pyDelItem itemPlace
  by_cases h1 : 0 ≤ i ∧ i < s.particles.length
  · rw [if_pos h1, if_pos h1]
    rfl
  · rw [if_neg h1, if_neg h1]
    by_cases h2 : -(s.particles.length : Int) ≤ i ∧ i < 0
    · rw [if_pos ⟨h2.2, by omega⟩, if_pos h2, show (i + (s.particles.length : Int)).toNat = s.particles.length - (-i).toNat by omega]
      rfl
    · rw [if_neg (by omega), if_neg h2]
      rfl

/-- Removing an inserted particle, by the place at which it was inserted, restores the list. -/
theorem remove_added [Zero F] (c : LdCfg F d) (s s' : LdState F d R) (pos : Fin d → F) (mass : F) (i : Int) (hi : i ≠ -1)
    (h : s.addParticle c (List.ofFn pos) mass i false = .ok s') :
    s'.removeParticle (insertPlace s.particles.length i) = .ok s := by
  obtain ⟨x, hx, h1, h2, _, h4, h5⟩ := add_particle_insert_all c s pos mass i hi
  rw [h] at hx
  cases hx
  rw [remove_particle_spec, if_pos (by have := insertPlace_le s.particles.length i; omega)]
  have : s'.particles.eraseIdx (insertPlace s.particles.length i) = s.particles := by
    apply List.ext_getElem?
    intro j
    rw [List.getElem?_eraseIdx]
    split
    · exact h4 j (by assumption)
    · exact h5 j (by omega)
  rw [this, h1]

/-- A particle that is added at the end (default) is removed with index -1. -/
theorem remove_appended [Zero F] (c : LdCfg F d) (s s' : LdState F d R) (pos : Fin d → F) (mass : F)
    (h : s.addParticle c (List.ofFn pos) mass (-1) false = .ok s') : s'.removeParticle (-1) = .ok s := by
  rw [add_particle_append] at h
  cases h
  rw [remove_particle_all]
  have : itemPlace (s.particles ++ [newParticle c pos mass]).length (-1) = some s.particles.length := by
    unfold itemPlace
    rw [if_neg (by omega), if_pos ⟨by simp, by omega⟩]
    simp
  rw [this]
  simp only
  rw [List.eraseIdx_append_of_length_le le_rfl]
  simp

end

/-! ### Examples -/

/-- Index -2 inserts before the last but one particle, so that the new one has index -3 afterwards. -/
example : intView (LdState.addParticle (intCfg none []) ⟨[newParticle (intCfg none []) (fun _ => 3) 1,
    newParticle (intCfg none []) (fun _ => 4) 1], 0⟩ [8] 2 (-2) false) =
      some ([[8, 0, 64, -16, 4], [3, 0, 9, -6, 2], [4, 0, 16, -8, 2]], 0) := by decide

example : insertPlace 5 (-2) = 3 ∧ insertPlace 5 9 = 5 ∧ insertPlace 5 (-9) = 0 ∧ itemPlace 5 (-2) = some 3 ∧
    itemPlace 5 5 = none := by decide

example : intView (LdState.removeParticle ⟨[newParticle (intCfg none []) (fun _ => 3) 1,
    newParticle (intCfg none []) (fun _ => 4) 1], 0⟩ (-2)) = some ([[4, 0, 16, -8, 2]], 0) := by decide

end Bdld
