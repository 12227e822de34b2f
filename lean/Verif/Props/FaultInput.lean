import Verif.Props.FaultSections
import Verif.Props.Interpolation

/-
C134, part 3: exceptions of the parser that are caught have a cause in the file.
-/

namespace Bdld
open Spec

section
variable {F : Type} (c : Conv F) [Zero F] [LT F] [DecidableLT F] [LE F] [DecidableLE F]

omit [Zero F] [LT F] [DecidableLT F] [LE F] [DecidableLE F] in
theorem requireSection_error {cfg : List Section} {name : String} {e : PyErr} (h : requireSection cfg name = .error e) :
    findSection cfg name = none ∧ e = .sectionError name := by
  unfold requireSection at h
  cases hf : findSection cfg name with
  | none => rw [hf] at h; cases h; exact ⟨rfl, rfl⟩
  | some s => rw [hf] at h; cases h

omit [Zero F] [LT F] [DecidableLT F] [LE F] [DecidableLE F] in
theorem required_found {cfg : List Section} {name : String} {s : Section} (h : requireSection cfg name = .ok s) :
    findSection cfg name = some s := by
  unfold requireSection at h
  cases hf : findSection cfg name with
  | none => rw [hf] at h; cases h
  | some s => rw [hf] at h; cases h; rfl

omit [Zero F] [LT F] [DecidableLT F] [LE F] [DecidableLE F] in
theorem parseOptional_error {cfg : List Section} {name : String} {f : Section → Except PyErr (Dict (OptVal F))} {e : PyErr}
    (h : parseOptional cfg name f = .error e) : ∃ s, findSection cfg name = some s ∧ f s = .error e := by
  unfold parseOptional at h
  cases hf : findSection cfg name with
  | none => rw [hf] at h; cases h
  | some s =>
    rw [hf] at h
    rcases bind_error h with h | ⟨_, _, h⟩
    · exact ⟨s, rfl, h⟩
    · cases h

omit [Zero F] [LT F] [DecidableLT F] [LE F] [DecidableLE F] in
theorem find_mem {cfg : List Section} {name : String} {s : Section} (h : findSection cfg name = some s) : s ∈ cfg :=
  List.mem_of_find?_eq_some h

omit [DecidableLT F] [DecidableLE F] in
/-- From a section to the file. -/
theorem cause_of_blame {cfg : List Section} {name : String} {s : Section} {l : Rules} {e : PyErr} (hs : findSection cfg name = some s)
    (hl : (name, l) ∈ rulesOf c cfg) (h : Blames l s e) (hc : caughtInput e = true) : Cause c cfg e := by
  obtain ⟨k, rfl, r, hr, hr'⟩ := h hc
  rw [find_name cfg name s hs]
  exact .option hs hl hr hr'

theorem parse_cause (one : F) (cfg : List Section) (hcfg : ∀ s ∈ cfg, PlainSection s) (e : PyErr)
    (h : parseAll one c (some cfg) = .error e) (hc : caughtInput e = true) : Cause c cfg e := by
  have hfind : ∀ {name s}, findSection cfg name = some s → PlainSection s := fun h => hcfg _ (find_mem h)
  unfold parseAll at h
  rcases bind_error h with h | ⟨cfg', e0, h⟩
  · cases h
  cases e0
  rcases bind_error h with h | ⟨sLd, e1, h⟩
  · obtain ⟨h1, rfl⟩ := requireSection_error h
    exact .missing (by simp) h1
  replace e1 := required_found e1
  rcases bind_error h with h | ⟨sPot, e2, h⟩
  · obtain ⟨h1, rfl⟩ := requireSection_error h
    exact .missing (by simp) h1
  replace e2 := required_found e2
  rcases bind_error h with h | ⟨sPart, e3, h⟩
  · obtain ⟨h1, rfl⟩ := requireSection_error h
    exact .missing (by simp) h1
  replace e3 := required_found e3
  rcases bind_error h with h | ⟨ld, e4, h⟩
  · exact cause_of_blame c e1 (by simp [rulesOf]) (ld_blame c (hfind e1) h) hc
  rcases bind_error h with h | ⟨potential, e5, h⟩
  · exact cause_of_blame c e2 (by simp [rulesOf]) (potential_blame c (hfind e2) h) hc
  rcases bind_error h with h | ⟨particles, e6, h⟩
  · exact cause_of_blame c e3 (by simp [rulesOf]) (particles_blame c one (hfind e3) h) hc
  have hone : isOneDim potential = true ↔ OneDimFile c cfg := by
    rw [isOneDim_iff c sPot potential e5]
    constructor
    · exact fun h => ⟨sPot, e2, h⟩
    · rintro ⟨s, hs, h⟩
      rw [e2] at hs
      cases hs
      exact h
  dsimp only at h
  rcases bind_error h with h | ⟨bd, e7, h⟩
  · obtain ⟨s, hs, h⟩ := parseOptional_error h
    exact cause_of_blame c hs (by simp [rulesOf]) (birthDeath_blame c _ hone (hfind hs) h) hc
  rcases bind_error h with h | ⟨traj, e8, h⟩
  · obtain ⟨s, hs, h⟩ := parseOptional_error h
    exact cause_of_blame c hs (by simp [rulesOf]) (trajectories_blame c (hfind hs) h) hc
  rcases bind_error h with h | ⟨hist, e9, h⟩
  · obtain ⟨s, hs, h⟩ := parseOptional_error h
    exact cause_of_blame c hs (by simp [rulesOf]) (histogram_blame c _ hone (hfind hs) h) hc
  rcases bind_error h with h | ⟨fes, e10, h⟩
  · obtain ⟨s, hs, h⟩ := parseOptional_error h
    split at h
    · cases h
      cases hc
    · exact cause_of_blame c hs (by simp [rulesOf]) (fes_blame c (hfind hs) h) hc
  rcases bind_error h with h | ⟨df, e11, h⟩
  · obtain ⟨s, hs, h⟩ := parseOptional_error h
    split at h
    · cases h
      cases hc
    · exact cause_of_blame c hs (by simp [rulesOf]) (states_blame c (hfind hs) h) hc
  rcases bind_error h with h | ⟨pd, e12, h⟩
  · obtain ⟨s, hs, h⟩ := parseOptional_error h
    exact cause_of_blame c hs (by simp [rulesOf]) (states_blame c (hfind hs) h) hc
  · cases h

end

/-! ### Sections as written in a file -/

theorem interpLoop_error (map : String → Option (List Char)) (rec : List Char → Except PyErr (List Char))
    (hrec : ∀ v e, rec v = .error e → e = .interpolationError) (n : Nat) (v : List Char) (e : PyErr)
    (h : interpLoop map rec n v = .error e) : e = .interpolationError := by
  induction n, v using interpLoop.induct map generalizing e with
  | case1 n => simp [interpLoop] at h
  | case2 => simp [interpLoop] at h
  | case3 n rest ih =>
    rw [interpLoop] at h
    rcases bind_error h with h | ⟨_, _, h⟩
    · exact ih e h
    · cases h
  | case4 n rest hm =>
    rw [interpLoop, hm] at h
    cases h
    rfl
  | case5 n rest name rest' hm hn =>
    rw [interpLoop, hm] at h
    simp only [hn] at h
    cases h
    rfl
  | case6 n rest name rest' hm v hn ih =>
    rw [interpLoop, hm] at h
    simp only [hn] at h
    rcases bind_error h with h | ⟨_, _, h⟩
    · split at h
      · exact hrec _ _ h
      · cases h
    · rcases bind_error h with h | ⟨_, _, h⟩
      · exact ih e h
      · cases h
  | case7 =>
    rw [interpLoop] at h
    · cases h; rfl
    all_goals assumption
  | case8 n c rest _ _ _ ih =>
    rw [interpLoop] at h
    · rcases bind_error h with h | ⟨_, _, h⟩
      · exact ih e h
      · cases h
    all_goals assumption

theorem interpDepth_error (map : String → Option (List Char)) : ∀ (n : Nat) (v : List Char) (e : PyErr),
    interpDepth map n v = .error e → e = .interpolationError
  | 0, v, e, h => by cases h; rfl
  | n + 1, v, e, h => interpLoop_error map _ (interpDepth_error map n) _ _ e h

/-- Sections of files have no other errors in their values. -/
theorem plain_ofRaw (name : String) (raw : Dict String) : PlainSection (Section.ofRaw name raw) := by
  intro key e h
  rw [ofRaw_get] at h
  cases hr : raw.get? key with
  | none => rw [hr] at h; cases h
  | some v =>
    rw [hr] at h
    cases hi : interpolate (fun k => (raw.get? k).map String.toList) v.toList with
    | ok w =>
      simp [hi, Except.map] at h
    | error e' =>
      simp [hi, Except.map] at h
      rw [← h]
      exact interpDepth_error _ _ _ _ hi

end Bdld
