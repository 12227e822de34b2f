import Verif.Props.ConfigText
import Verif.Props.Interpolation
import Verif.Props.InputTextDemo

/-
C118: the result of the program depends only on which values the sections of the input file have. C119: the section
`DEFAULT`.
-/

namespace Bdld
open Spec

theorem raw_ext {raw raw' : Dict String} {P P' : String → String → Prop} (h : ∀ k v, raw.get? k = some v ↔ P k v)
    (h' : ∀ k v, raw'.get? k = some v ↔ P' k v) (key : String) (hp : ∀ v, P key v ↔ P' key v) : raw.get? key = raw'.get? key := by
  apply Option.ext
  intro v
  exact (h key v).trans ((hp v).trans (h' key v).symm)

/-- The known sections of the files have the same options with the same values. -/
def Spec.SameOptions (bs bs' : List Block) : Prop :=
  ∀ name ∈ sections, (HasSection bs name ↔ HasSection bs' name) ∧
    (HasSection bs name → ∀ key value, Written bs name key value ↔ Written bs' name key value)

/-- The known sections of the files have the same known options with the same values, which contain no percent signs. -/
def Spec.SameValues (bs bs' : List Block) : Prop :=
  ∀ name ∈ sections, (HasSection bs name ↔ HasSection bs' name) ∧
    (HasSection bs name → ∀ key, Known name key → ∀ value,
      (Written bs name key value ↔ Written bs' name key value) ∧ (Written bs name key value → '%' ∉ value.toList))

theorem sameInput_of {bs bs' : List Block} {ls ls' : List (List Char)} (h : Layout bs ls) (h' : Layout bs' ls')
    (hd : Distinct bs) (hd' : Distinct bs')
    (hs : ∀ name ∈ sections, HasSection bs name ↔ HasSection bs' name)
    (hk : ∀ name ∈ sections, HasSection bs name → ∀ raw raw' : Dict String,
      (∀ key value, raw.get? key = some value ↔ Written bs name key value) →
      (∀ key value, raw'.get? key = some value ↔ Written bs' name key value) → ∀ key, Known name key →
      (Section.ofRaw name raw).entries.get? key = (Section.ofRaw name raw').entries.get? key) :
    ∃ cfg cfg', readConfig ls = .ok cfg ∧ readConfig ls' = .ok cfg' ∧ SameInput cfg cfg' := by
  obtain ⟨cfg, e, hc⟩ := layout_section h hd
  obtain ⟨cfg', e', hc'⟩ := layout_section h' hd'
  refine ⟨cfg, cfg', e, e', fun name hn => ?_⟩
  by_cases hh : HasSection bs name
  · obtain ⟨raw, f1, f2⟩ := (hc name).2 hh
    obtain ⟨raw', g1, g2⟩ := (hc' name).2 ((hs name hn).1 hh)
    rw [f1, g1]
    exact .some ⟨rfl, hk name hn hh raw raw' f2 g2⟩
  · rw [(hc name).1 hh, (hc' name).1 fun h => hh ((hs name hn).2 h)]
    exact .none

theorem mainText_same {R : Type} (w : World R) {ls ls' : List (List Char)} {cfg cfg' : List Section}
    (e : readConfig ls = .ok cfg) (e' : readConfig ls' = .ok cfg') (h : SameInput cfg cfg') :
    mainText w (some ls) = mainText w (some ls') := by
  simp only [mainText, e, e', mainProgram, unknown_ignored 1 w.conv cfg cfg' h]

/-- **C118.** The order of the sections and options, spaces, comments, empty lines, the delimiter, capital letters in the names of
options, and unknown sections have no effect on the run of the program. -/
theorem same_meaning {R : Type} (w : World R) {bs bs' : List Block} {ls ls' : List (List Char)} (h : Layout bs ls)
    (h' : Layout bs' ls') (hd : Distinct bs) (hd' : Distinct bs') (hs : SameOptions bs bs') :
    mainText w (some ls) = mainText w (some ls') := by
  obtain ⟨cfg, cfg', e, e', hc⟩ := sameInput_of h h' hd hd' (fun name hn => (hs name hn).1) fun name hn hh raw raw' f g key _ => by
    have he : ∀ k, raw.get? k = raw'.get? k := fun k => raw_ext f g k ((hs name hn).2 hh k)
    rw [ofRaw_get, ofRaw_get, he]
    simp only [he]
  exact mainText_same w e e' hc

/-- **C118.** Without references to other values, neither have unknown options. -/
theorem same_values {R : Type} (w : World R) {bs bs' : List Block} {ls ls' : List (List Char)} (h : Layout bs ls)
    (h' : Layout bs' ls') (hd : Distinct bs) (hd' : Distinct bs') (hs : SameValues bs bs') :
    mainText w (some ls) = mainText w (some ls') := by
  obtain ⟨cfg, cfg', e, e', hc⟩ := sameInput_of h h' hd hd' (fun name hn => (hs name hn).1) fun name hn hh raw raw' f g key hk => by
    have he : raw.get? key = raw'.get? key := raw_ext f g key fun v => ((hs name hn).2 hh key hk v).1
    rw [ofRaw_get, ofRaw_get, ← he]
    cases hv : raw.get? key with
    | none => simp only [Option.map_none]
    | some v =>
      have hp := ((hs name hn).2 hh key hk v).2 ((f key v).1 hv)
      simp only [Option.map_some, interpolate_plain _ _ hp]
  exact mainText_same w e e' hc

/-- **C118.** Comments can be added and removed anywhere in any file. -/
theorem comment_main {R : Type} (w : World R) (a b : List (List Char)) {l : List Char} (h : CfgComment l) :
    mainText w (some (a ++ l :: b)) = mainText w (some (a ++ b)) := by
  simp only [mainText, comment_ignored a b h]

/-- **C118.** A section or option that is given twice ends the program with an exception that is not caught. -/
theorem twice_main {R : Type} (w : World R) {bs : List Block} {ls : List (List Char)} (h : Layout bs ls) (hd : ¬ Distinct bs) :
    mainText w (some ls) = .uncaught .configError := by
  simp only [mainText, layout_twice h hd]
  rfl

/-- **C118.** A simulation is only run for files whose sections have the described values. -/
theorem text_described {R : Type} (w : World R) (ls : List (List Char)) (a : AnySim R)
    (h : mainText w (some ls) = .finished a) : ∃ cfg, readConfig ls = .ok cfg ∧ InputText w.conv cfg := by
  rw [mainText] at h
  cases hc : readConfig ls with
  | error e =>
    rw [hc] at h
    dsimp only [raise] at h
    split at h <;> cases h
  | ok cfg =>
    rw [hc] at h
    exact ⟨cfg, rfl, finished_described w cfg a h⟩

/-! ### The section `DEFAULT` (C119) -/

/-- **C119.** An option of `DEFAULT` belongs to all sections that do not have it themselves. -/
theorem default_shared {bs : List Block} {ls : List (List Char)} (h : Layout bs ls) (hd : Distinct bs) {key value : String}
    (hv : Own bs "DEFAULT" key value) (hp : '%' ∉ value.toList) :
    ∃ cfg, readConfig ls = .ok cfg ∧ ∀ s ∈ cfg, (∀ v, ¬ Own bs s.name key v) → s.entries.get? key = some (.ok value) := by
  refine ⟨_, layout_config h hd, fun s hs hn => ?_⟩
  obtain ⟨p, hp', rfl⟩ := List.mem_map.1 hs
  obtain ⟨b, hb, rfl⟩ := List.mem_map.1 hp'
  have hno : Dict.get? b.options key = none := by
    rw [Dict.get?_none]
    rintro ⟨v, hm⟩
    exact hn v ⟨b, (List.mem_filter.1 hb).1, rfl, hm⟩
  rw [ofRaw_get, withDefaults_get, hno, Option.none_or,
    (Dict.get?_nodup (defaultsOf bs) hd.defaults _ _).2 ((own_default key value).1 hv), Option.map_some, interpolate_plain _ _ hp]
  simp [Except.map, String.ofList_toList]

/-- **C119.** An own value has precedence. -/
theorem default_overridden {bs : List Block} {ls : List (List Char)} (h : Layout bs ls) (hd : Distinct bs) {name key value : String}
    (hn : name ≠ "DEFAULT") (hv : Own bs name key value) (hp : '%' ∉ value.toList) :
    ∃ cfg s, readConfig ls = .ok cfg ∧ findSection cfg name = some s ∧ s.entries.get? key = some (.ok value) := by
  obtain ⟨cfg, e, hc⟩ := layout_section h hd
  have hh : HasSection bs name := ⟨hn, by obtain ⟨b, h1, h2, _⟩ := hv; exact ⟨b, h1, h2⟩⟩
  obtain ⟨raw, f1, f2⟩ := (hc name).2 hh
  refine ⟨cfg, _, e, f1, ?_⟩
  rw [ofRaw_get, (f2 key value).2 (.inl hv), Option.map_some, interpolate_plain _ _ hp]
  simp [Except.map, String.ofList_toList]

/-- **C119.** There is no section `DEFAULT` for the program, and it does not create sections. -/
theorem default_hidden {bs : List Block} {ls : List (List Char)} (h : Layout bs ls) (hd : Distinct bs) :
    ∃ cfg, readConfig ls = .ok cfg ∧ findSection cfg "DEFAULT" = none ∧
      cfg.map (·.name) = (bs.map (·.name)).filter (· ≠ "DEFAULT") := by
  obtain ⟨cfg, e, hc⟩ := layout_section h hd
  refine ⟨cfg, e, (hc "DEFAULT").1 fun hh => hh.1 rfl, ?_⟩
  obtain rfl := Except.ok.inj ((layout_config h hd).symm.trans e)
  rw [List.map_map, othersOf, List.map_map, List.filter_map]
  rfl

end Bdld
