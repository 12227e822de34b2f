import Verif.Props.InputText
import Verif.Props.Dependencies

/-
C117: examples, and the whole program.
-/

namespace Bdld
open Spec

/-- **C117.** A simulation is only run for the described input files. -/
theorem finished_described {R : Type} (w : World R) (cfg : List Section) (a : AnySim R)
    (h : mainProgram w (some cfg) = .finished a) : InputText w.conv cfg := by
  obtain ⟨config, r, z, n, s, hp, _⟩ := main_inv w _ a h
  exact (input_accepted w.conv 1 cfg).1 ⟨config, hp⟩

theorem exText_floats {raw : String} {P : Int → Prop} (parts : List String) (h1 : raw.toList = [','].intercalate (parts.map String.toList))
    (h0 : parts ≠ []) (h2 : ∀ p ∈ parts, ',' ∉ p.toList) (h3 : ∀ p ∈ parts, floatText exConv P p) : floatsText exConv P raw :=
  ⟨parts, ⟨h1, h0, h2⟩, h3⟩

/-- The example from `Props/InputSections.lean` is described. -/
theorem exInput_described : InputText exConv exInput where
  ld := ⟨_, rfl, ⟨_, rfl, .inl rfl⟩, ⟨_, rfl, 1, rfl, by decide⟩, ⟨_, rfl, 3, rfl, by decide⟩, .inl rfl,
    fun ⟨_, h, e⟩ => by cases h; exact absurd e (by decide), fun ⟨_, h, e⟩ => by cases h; exact absurd e (by decide)⟩
  potential := ⟨_, rfl, ⟨⟨_, rfl, .inl rfl⟩, .inl rfl, .inr ⟨_, rfl, 1, rfl, trivial⟩, fun _ => .inl rfl,
      fun _ => ⟨_, rfl, 1, rfl, by decide⟩,
      fun _ _ => ⟨.inr ⟨_, rfl, exText_floats ["1", "2"] (by decide) (by decide) (by decide) (by
        intro p hp
        simp only [List.mem_cons, List.not_mem_nil, or_false] at hp
        rcases hp with rfl | rfl
        · exact ⟨1, rfl, trivial⟩
        · exact ⟨2, rfl, trivial⟩)⟩, ⟨_, rfl, -1, rfl, trivial⟩, ⟨_, rfl, 1, rfl, trivial⟩⟩,
      fun _ h => absurd ⟨_, rfl, 1, rfl, rfl⟩ h⟩,
    fun t ht => by
      cases ht
      exact ⟨⟨_, rfl, 2, rfl, by decide⟩, .inl rfl, .inl rfl, .inl rfl, .inl rfl, .inl rfl, .inl rfl, .inl rfl,
        fun _ => ⟨_, rfl, 1, rfl, by decide⟩, fun h => absurd ⟨_, rfl, 1, rfl, rfl⟩ h⟩,
    fun t ht => by cases ht⟩
  particles := ⟨_, rfl, ⟨_, rfl, 4, rfl, by decide⟩, .inl rfl, .inl rfl, ⟨_, rfl, .inr (.inl rfl)⟩,
    fun _ => ⟨["1"], by
      refine ⟨fun i hi => ?_, rfl⟩
      obtain rfl : i = 0 := by simpa using hi
      rfl, fun t ht => by
      obtain rfl := List.mem_singleton.1 ht
      exact exText_floats ["1"] (by decide) (by decide) (by decide) (by
        intro p hp
        obtain rfl := List.mem_singleton.1 hp
        exact ⟨1, rfl, trivial⟩)⟩,
    fun ⟨_, h, e⟩ => by cases h; exact absurd e (by decide)⟩
  trajectories := fun t ht => by cases ht
  fes := fun t ht => by cases ht
  deltaF := fun t ht => by cases ht
  particleDistribution := fun t ht => by cases ht

/-- Hence it is accepted. -/
example : ∃ inp, parseAll 1 exConv (some exInput) = .ok inp := (input_accepted exConv 1 exInput).2 exInput_described

/-- A delta F section without a FES section is not described. -/
theorem exInput_deltaF : ¬ InputText exConv (exInput ++ [⟨"delta-f", [("state1-min", .ok "1"), ("state1-max", .ok "2")]⟩]) := by
  intro h
  have := (h.deltaF _ rfl).1
  revert this
  decide

/-- Hence it is rejected. -/
example : ¬ ∃ inp, parseAll 1 exConv (some (exInput ++ [⟨"delta-f", [("state1-min", .ok "1"), ("state1-max", .ok "2")]⟩])) = .ok inp :=
  fun h => exInput_deltaF ((input_accepted exConv 1 _).1 h)

end Bdld
