import Verif.Props.InputText
import Verif.Props.Setup
import Verif.Spec.Defaults

/-
C128: writing the documented default of an option has the same effect as leaving the option out.
-/

namespace Bdld
open Spec

/-! ### Dictionaries with one value exchanged -/

open Classical in
/-- The value `new` for `old` if the key is the given one. -/
noncomputable def swapVal {V : Type} (key : String) (old new : V) (k : String) (x : V) : V :=
  if k = key ∧ x = old then new else x

theorem swapVal_ne {V : Type} {key : String} (old new : V) {k : String} (h : k ≠ key) (x : V) : swapVal key old new k x = x := by
  simp [swapVal, h]

theorem swapVal_eq {V : Type} (key : String) (old new : V) : swapVal key old new key old = new := by
  simp [swapVal]

/-- The value `old` of `key` replaced by `new`. -/
noncomputable def Dict.swap {V : Type} (key : String) (old new : V) (d : Dict V) : Dict V :=
  d.map fun p => (p.1, swapVal key old new p.1 p.2)

theorem swap_get {V : Type} (key : String) (old new : V) (d : Dict V) (k : String) :
    (d.swap key old new).get? k = (d.get? k).map (swapVal key old new k) := by
  unfold Dict.swap Dict.get?
  induction d with
  | nil => rfl
  | cons p d ih =>
    rw [List.map_cons, List.lookup_cons, List.lookup_cons]
    by_cases hk : k = p.1
    · subst hk; simp
    · rw [show (k == p.1) = false from by simpa using hk]
      simpa using ih

theorem swap_set {V : Type} (key : String) (old new : V) (d : Dict V) (k : String) (x : V) :
    (d.set k x).swap key old new = (d.swap key old new).set k (swapVal key old new k x) := by
  unfold Dict.swap
  induction d with
  | nil => rfl
  | cons p d ih =>
    obtain ⟨k', y⟩ := p
    simp only [Dict.set, List.map_cons]
    split_ifs with h1
    · subst h1; simp
    · simp only [List.map_cons, ih]

theorem swap_ne {V : Type} (key : String) (old new : V) (d : Dict V) {k : String} (h : k ≠ key) :
    (d.swap key old new).getItem k = d.getItem k := by
  unfold Dict.getItem
  rw [swap_get]
  cases d.get? k with
  | none => rfl
  | some x => simp [swapVal_ne _ _ h]

/-- What is calculated from a value that is the same for both. -/
theorem swap_eq {V W : Type} (key : String) (old new : V) (d : Dict V) (f : V → Except PyErr W) (h : f new = f old) :
    ((d.swap key old new).getItem key >>= f) = (d.getItem key >>= f) := by
  unfold Dict.getItem
  rw [swap_get]
  cases d.get? key with
  | none => rfl
  | some x =>
    by_cases hx : x = old
    · subst hx; simpa [swapVal_eq, ok_bind] using h
    · simp [swapVal, hx]

theorem numberedLoop_agree {V : Type} (g g' : String → Option (Except PyErr V)) (pre suf : String)
    (h : ∀ n, g (numKey pre suf n) = g' (numKey pre suf n)) :
    ∀ fuel counter res, numberedLoop g pre suf fuel counter res = numberedLoop g' pre suf fuel counter res := by
  intro fuel
  induction fuel with
  | zero => intro _ _; rfl
  | succ fuel ih =>
    intro counter res
    rw [numberedLoop, numberedLoop, h]
    cases g' (numKey pre suf counter) with
    | none => rfl
    | some r =>
      cases r with
      | error e => rfl
      | ok v => exact ih _ _

theorem swap_numbered {V : Type} (key : String) (old new : V) (d : Dict V) (pre suf : String)
    (h : ∀ n, numKey pre suf n ≠ key) : numberedDict (d.swap key old new) pre suf = numberedDict d pre suf := by
  unfold numberedDict
  rw [show (d.swap key old new).length = d.length from List.length_map _]
  refine numberedLoop_agree _ _ _ _ (fun n => ?_) _ _ _
  rw [swap_get]
  cases d.get? (numKey pre suf n) with
  | none => rfl
  | some x => simp [swapVal_ne _ _ (h n)]

/-! ### Parsing -/

section
variable (c : Conv ℝ)

theorem parseLoop_swap (s s' : Section) (key : String) (old new : OptVal ℝ) : ∀ (os : List (InputOption ℝ)) (d : Dict (OptVal ℝ)),
    (∀ o ∈ os, o.parse c s' = (o.parse c s).map (swapVal key old new o.key)) →
    parseLoop c s' os (d.swap key old new) = (parseLoop c s os d).map (Dict.swap key old new) := by
  intro os
  induction os with
  | nil => intro d _; rfl
  | cons o os ih =>
    intro d h
    rw [parseLoop, parseLoop, h o (List.mem_cons_self ..)]
    cases o.parse c s with
    | error e => rfl
    | ok v =>
      simp only [Except.map]
      rw [← swap_set]
      exact ih _ fun o' ho' => h o' (List.mem_cons_of_mem _ ho')

/-- The section with one more option. -/
def addOption (s : Section) (key value : String) : Section := ⟨s.name, s.entries.set key (.ok value)⟩

theorem addOption_get (s : Section) (key value k : String) :
    (addOption s key value).entries.get? k = if k = key then some (.ok value) else s.entries.get? k :=
  Dict.get?_set _ _ _ _

theorem addOption_parse (s : Section) (key value : String) (o : InputOption ℝ) (h : o.key ≠ key) :
    o.parse c (addOption s key value) = o.parse c s := by
  refine parse_congr c o _ _ rfl ?_
  rw [addOption_get, if_neg h]

/-- Parsing a section with an option that was not given before: only its value changes. -/
theorem parseSection_swap (s : Section) (key value : String) (hm : s.entries.get? key = none) (old new : OptVal ℝ)
    (os : List (InputOption ℝ))
    (h : ∀ o ∈ os, o.key = key → o.compulsory = false ∧ o.default = old ∧ o.parse c (addOption s key value) = .ok new) :
    parseSection c (addOption s key value) os = (parseSection c s os).map (Dict.swap key old new) := by
  refine parseLoop_swap c s _ key old new os [] fun o ho => ?_
  by_cases hk : o.key = key
  · obtain ⟨h1, h2, h3⟩ := h o ho hk
    rw [h3, option_default c o s (by rw [hk]; exact (Dict.get?_none _ _).1 hm) h1]
    simp [Except.map, hk, h2, swapVal_eq]
  · rw [addOption_parse c s key value o hk]
    cases o.parse c s with
    | error e => rfl
    | ok v => simp [Except.map, swapVal_ne _ _ hk]

/-! ### Files with one more option -/

theorem find_with_ne (cfg : List Section) {name key value name' : String} (h : name' ≠ name) :
    findSection (withOption cfg name key value) name' = findSection cfg name' := by
  unfold findSection withOption
  induction cfg with
  | nil => rfl
  | cons s cfg ih =>
    rw [List.map_cons, List.find?_cons, List.find?_cons, ih]
    by_cases hs : s.name = name
    · rw [if_pos hs]
      simp [hs, Ne.symm h]
    · rw [if_neg hs]

theorem find_with_eq (cfg : List Section) (name key value : String) :
    findSection (withOption cfg name key value) name = (findSection cfg name).map (addOption · key value) := by
  unfold findSection withOption
  induction cfg with
  | nil => rfl
  | cons s cfg ih =>
    rw [List.map_cons, List.find?_cons, List.find?_cons, ih]
    by_cases hs : s.name = name
    · rw [if_pos hs]
      simp [hs, addOption]
    · rw [if_neg hs]
      simp [hs]

theorem optional_ne (cfg : List Section) {name key value name' : String} (h : name' ≠ name)
    (f : Section → Except PyErr (Dict (OptVal ℝ))) :
    parseOptional (withOption cfg name key value) name' f = parseOptional cfg name' f := by
  unfold parseOptional
  rw [find_with_ne cfg h]

theorem optional_eq (cfg : List Section) (name key value : String) (f : Section → Except PyErr (Dict (OptVal ℝ)))
    (g : Dict (OptVal ℝ) → Dict (OptVal ℝ))
    (h : ∀ s, findSection cfg name = some s → f (addOption s key value) = (f s).map g) :
    parseOptional (withOption cfg name key value) name f = (parseOptional cfg name f).map (Option.map g) := by
  unfold parseOptional
  rw [find_with_eq]
  cases hs : findSection cfg name with
  | none => rfl
  | some s =>
    simp only [Option.map_some, h s hs]
    cases f s <;> rfl

theorem require_ne (cfg : List Section) {name key value name' : String} (h : name' ≠ name) :
    requireSection (withOption cfg name key value) name' = requireSection cfg name' := by
  unfold requireSection
  rw [find_with_ne cfg h]

theorem require_eq (cfg : List Section) (name key value : String) :
    requireSection (withOption cfg name key value) name = (requireSection cfg name).map (addOption · key value) := by
  unfold requireSection
  rw [find_with_eq]
  cases findSection cfg name <;> rfl

theorem bind_map_same {α β γ : Type} {x : Except PyErr α} {k : α → Except PyErr β} {k' : α → Except PyErr γ} {g : β → γ}
    (h : ∀ a, x = .ok a → k' a = (k a).map g) : (x >>= k') = (x >>= k).map g := by
  cases x with
  | error e => rfl
  | ok a => exact h a rfl

theorem bind_map_both {α α' β γ : Type} {x : Except PyErr α} {x' : Except PyErr α'} {f : α → α'} {k : α → Except PyErr β}
    {k' : α' → Except PyErr γ} {g : β → γ} (hx : x' = x.map f) (h : ∀ a, x = .ok a → k' (f a) = (k a).map g) :
    (x' >>= k') = (x >>= k).map g := by
  subst hx
  cases x with
  | error e => rfl
  | ok a => exact h a rfl

/-- Change of the options of one section. -/
def onBirthDeath (g : Dict (OptVal ℝ) → Dict (OptVal ℝ)) (inp : Input ℝ) : Input ℝ :=
  { inp with birthDeath := inp.birthDeath.map g }

theorem parseAll_birthDeath (cfg : List Section) (key value : String) (g : Dict (OptVal ℝ) → Dict (OptVal ℝ))
    (h : ∀ s b, findSection cfg "birth-death" = some s →
      parseSection c (addOption s key value) (birthDeathOptions b) = (parseSection c s (birthDeathOptions b)).map g) :
    parseAll 1 c (some (withOption cfg "birth-death" key value)) = (parseAll 1 c (some cfg)).map (onBirthDeath g) := by
  unfold parseAll
  simp only [pure_eq_ok, ok_bind]
  rw [require_ne _ (by decide), require_ne _ (by decide), require_ne _ (by decide)]
  refine bind_map_same fun _ _ => bind_map_same fun _ _ => bind_map_same fun _ _ => bind_map_same fun _ _ =>
    bind_map_same fun pot _ => bind_map_same fun _ _ => ?_
  refine bind_map_both (optional_eq _ _ _ _ _ _ fun s hs => h s _ hs) fun _ _ => ?_
  simp only [optional_ne _ (show "trajectories" ≠ "birth-death" by decide), optional_ne _ (show "histogram" ≠ "birth-death" by decide),
    optional_ne _ (show "fes" ≠ "birth-death" by decide), optional_ne _ (show "delta-f" ≠ "birth-death" by decide),
    optional_ne _ (show "particle-distribution" ≠ "birth-death" by decide)]
  refine bind_map_same fun _ _ => bind_map_same fun _ _ => bind_map_same fun _ _ => bind_map_same fun _ _ => bind_map_same fun _ _ => rfl

def onTrajectories (g : Dict (OptVal ℝ) → Dict (OptVal ℝ)) (inp : Input ℝ) : Input ℝ :=
  { inp with trajectories := inp.trajectories.map g }

theorem parseAll_trajectories (cfg : List Section) (key value : String) (g : Dict (OptVal ℝ) → Dict (OptVal ℝ))
    (h : ∀ s, findSection cfg "trajectories" = some s →
      parseSection c (addOption s key value) trajectoriesOptions = (parseSection c s trajectoriesOptions).map g) :
    parseAll 1 c (some (withOption cfg "trajectories" key value)) = (parseAll 1 c (some cfg)).map (onTrajectories g) := by
  unfold parseAll
  simp only [pure_eq_ok, ok_bind]
  rw [require_ne _ (by decide), require_ne _ (by decide), require_ne _ (by decide)]
  simp only [optional_ne _ (show "birth-death" ≠ "trajectories" by decide), optional_ne _ (show "histogram" ≠ "trajectories" by decide),
    optional_ne _ (show "fes" ≠ "trajectories" by decide), optional_ne _ (show "delta-f" ≠ "trajectories" by decide),
    optional_ne _ (show "particle-distribution" ≠ "trajectories" by decide)]
  refine bind_map_same fun _ _ => bind_map_same fun _ _ => bind_map_same fun _ _ => bind_map_same fun _ _ =>
    bind_map_same fun pot _ => bind_map_same fun _ _ => bind_map_same fun _ _ => ?_
  refine bind_map_both (optional_eq _ _ _ _ _ _ h) fun _ _ => ?_
  refine bind_map_same fun _ _ => bind_map_same fun _ _ => bind_map_same fun _ _ => bind_map_same fun _ _ => rfl

def onHistogram (g : Dict (OptVal ℝ) → Dict (OptVal ℝ)) (inp : Input ℝ) : Input ℝ :=
  { inp with histogram := inp.histogram.map g }

theorem parseAll_histogram (cfg : List Section) (key value : String) (g : Dict (OptVal ℝ) → Dict (OptVal ℝ))
    (h : ∀ s b, findSection cfg "histogram" = some s →
      parseSection c (addOption s key value) (histogramOptions b) = (parseSection c s (histogramOptions b)).map g) :
    parseAll 1 c (some (withOption cfg "histogram" key value)) = (parseAll 1 c (some cfg)).map (onHistogram g) := by
  unfold parseAll
  simp only [pure_eq_ok, ok_bind]
  rw [require_ne _ (by decide), require_ne _ (by decide), require_ne _ (by decide)]
  simp only [optional_ne _ (show "birth-death" ≠ "histogram" by decide), optional_ne _ (show "trajectories" ≠ "histogram" by decide),
    optional_ne _ (show "fes" ≠ "histogram" by decide), optional_ne _ (show "delta-f" ≠ "histogram" by decide),
    optional_ne _ (show "particle-distribution" ≠ "histogram" by decide)]
  refine bind_map_same fun _ _ => bind_map_same fun _ _ => bind_map_same fun _ _ => bind_map_same fun _ _ =>
    bind_map_same fun pot _ => bind_map_same fun _ _ => bind_map_same fun _ _ => bind_map_same fun _ _ => ?_
  refine bind_map_both (optional_eq _ _ _ _ _ _ fun s hs => h s _ hs) fun _ _ => ?_
  simp only [Option.isNone_map]
  refine bind_map_same fun _ _ => bind_map_same fun _ _ => bind_map_same fun _ _ => rfl

def onDeltaF (g : Dict (OptVal ℝ) → Dict (OptVal ℝ)) (inp : Input ℝ) : Input ℝ :=
  { inp with deltaF := inp.deltaF.map g }

/-- Parsing of the sections `delta-f` and `particle-distribution`. -/
noncomputable def parseStates (s : Section) : Except PyErr (Dict (OptVal ℝ)) := do
  let options ← stateActionOptions s
  parseSection c s options

theorem parseAll_deltaF (cfg : List Section) (key value : String) (g : Dict (OptVal ℝ) → Dict (OptVal ℝ))
    (h : ∀ s, findSection cfg "delta-f" = some s → parseStates c (addOption s key value) = (parseStates c s).map g) :
    parseAll 1 c (some (withOption cfg "delta-f" key value)) = (parseAll 1 c (some cfg)).map (onDeltaF g) := by
  unfold parseAll
  simp only [pure_eq_ok, ok_bind]
  rw [require_ne _ (by decide), require_ne _ (by decide), require_ne _ (by decide)]
  simp only [optional_ne _ (show "birth-death" ≠ "delta-f" by decide), optional_ne _ (show "trajectories" ≠ "delta-f" by decide),
    optional_ne _ (show "fes" ≠ "delta-f" by decide), optional_ne _ (show "histogram" ≠ "delta-f" by decide),
    optional_ne _ (show "particle-distribution" ≠ "delta-f" by decide)]
  refine bind_map_same fun _ _ => bind_map_same fun _ _ => bind_map_same fun _ _ => bind_map_same fun _ _ =>
    bind_map_same fun pot _ => bind_map_same fun _ _ => bind_map_same fun _ _ => bind_map_same fun _ _ =>
    bind_map_same fun _ _ => bind_map_same fun fes _ => ?_
  refine bind_map_both (optional_eq _ _ _ _ _ g fun s hs => ?_) fun _ _ => ?_
  · split
    · rfl
    · exact h s hs
  · exact bind_map_same fun _ _ => rfl

def onDistribution (g : Dict (OptVal ℝ) → Dict (OptVal ℝ)) (inp : Input ℝ) : Input ℝ :=
  { inp with particleDistribution := inp.particleDistribution.map g }

theorem parseAll_distribution (cfg : List Section) (key value : String) (g : Dict (OptVal ℝ) → Dict (OptVal ℝ))
    (h : ∀ s, findSection cfg "particle-distribution" = some s → parseStates c (addOption s key value) = (parseStates c s).map g) :
    parseAll 1 c (some (withOption cfg "particle-distribution" key value)) = (parseAll 1 c (some cfg)).map (onDistribution g) := by
  unfold parseAll
  simp only [pure_eq_ok, ok_bind]
  rw [require_ne _ (by decide), require_ne _ (by decide), require_ne _ (by decide)]
  simp only [optional_ne _ (show "birth-death" ≠ "particle-distribution" by decide),
    optional_ne _ (show "trajectories" ≠ "particle-distribution" by decide),
    optional_ne _ (show "fes" ≠ "particle-distribution" by decide), optional_ne _ (show "histogram" ≠ "particle-distribution" by decide),
    optional_ne _ (show "delta-f" ≠ "particle-distribution" by decide)]
  refine bind_map_same fun _ _ => bind_map_same fun _ _ => bind_map_same fun _ _ => bind_map_same fun _ _ =>
    bind_map_same fun pot _ => bind_map_same fun _ _ => bind_map_same fun _ _ => bind_map_same fun _ _ =>
    bind_map_same fun _ _ => bind_map_same fun fes _ => bind_map_same fun _ _ => ?_
  exact bind_map_both (optional_eq _ _ _ _ _ g fun s hs => h s hs) fun _ _ => rfl

def onPotential (g : Dict (OptVal ℝ) → Dict (OptVal ℝ)) (inp : Input ℝ) : Input ℝ := { inp with potential := g inp.potential }

theorem parseAll_potential (cfg : List Section) (key value : String) (g : Dict (OptVal ℝ) → Dict (OptVal ℝ))
    (h : ∀ s, findSection cfg "potential" = some s → parsePotential c (addOption s key value) = (parsePotential c s).map g)
    (hg : ∀ d, isOneDim (g d) = isOneDim d) :
    parseAll 1 c (some (withOption cfg "potential" key value)) = (parseAll 1 c (some cfg)).map (onPotential g) := by
  unfold parseAll
  simp only [pure_eq_ok, ok_bind]
  rw [require_ne _ (show "ld" ≠ "potential" by decide), require_ne _ (show "particles" ≠ "potential" by decide), require_eq]
  simp only [optional_ne _ (show "birth-death" ≠ "potential" by decide),
    optional_ne _ (show "trajectories" ≠ "potential" by decide), optional_ne _ (show "particle-distribution" ≠ "potential" by decide),
    optional_ne _ (show "fes" ≠ "potential" by decide), optional_ne _ (show "histogram" ≠ "potential" by decide),
    optional_ne _ (show "delta-f" ≠ "potential" by decide)]
  refine bind_map_same fun _ _ => bind_map_both rfl fun s hs => bind_map_same fun _ _ => bind_map_same fun _ _ =>
    bind_map_both (h s ?_) fun _ _ => ?_
  · unfold requireSection at hs
    split at hs
    · cases hs
    · cases hs; assumption
  · rw [hg]
    exact bind_map_same fun _ _ => bind_map_same fun _ _ => bind_map_same fun _ _ => bind_map_same fun _ _ =>
      bind_map_same fun _ _ => bind_map_same fun _ _ => bind_map_same fun _ _ => rfl

theorem parseAll_particles (cfg : List Section) (key value : String)
    (h : ∀ s, findSection cfg "particles" = some s → parseParticles 1 c (addOption s key value) = parseParticles 1 c s) :
    parseAll 1 c (some (withOption cfg "particles" key value)) = parseAll 1 c (some cfg) := by
  unfold parseAll
  simp only [pure_eq_ok, ok_bind]
  rw [require_ne _ (by decide), require_ne _ (by decide), require_eq]
  simp only [optional_ne _ (show "birth-death" ≠ "particles" by decide),
    optional_ne _ (show "trajectories" ≠ "particles" by decide), optional_ne _ (show "particle-distribution" ≠ "particles" by decide),
    optional_ne _ (show "fes" ≠ "particles" by decide), optional_ne _ (show "histogram" ≠ "particles" by decide),
    optional_ne _ (show "delta-f" ≠ "particles" by decide)]
  congr 1; funext _; congr 1; funext _
  cases hs : requireSection cfg "particles" with
  | error e => rfl
  | ok s =>
    simp only [Except.map, ok_bind]
    rw [h s]
    unfold requireSection at hs
    split at hs
    · cases hs
    · cases hs; assumption

/-! ### Parsing of the single options -/

theorem added_int (s : Section) {key v : String} {k : Int} (b : Bool) (d : OptVal ℝ) (h : c.toInt v = some k) (hk : 0 < k) :
    (opt key .int b (some positive) d).parse c (addOption s key v) = .ok (.base (.int k)) := by
  unfold InputOption.parse
  rw [addOption_get]
  simp [opt, InputOption.convert, h, ok_bind, pure_eq_ok, positive, gtZero, cmpNum, hk]

theorem added_float (s : Section) {key v : String} {x : ℝ} (b : Bool) (d : OptVal ℝ) (h : c.toFloat v = some x) (hx : 0 < x) :
    (opt key .float b (some positive) d).parse c (addOption s key v) = .ok (.base (.float x)) := by
  unfold InputOption.parse
  rw [addOption_get]
  simp [opt, InputOption.convert, h, ok_bind, pure_eq_ok, positive, gtZero, cmpNum, hx]

theorem added_any_float (s : Section) {key v : String} {x : ℝ} (b : Bool) (d : OptVal ℝ) (h : c.toFloat v = some x) :
    (opt key .float b none d).parse c (addOption s key v) = .ok (.base (.float x)) := by
  unfold InputOption.parse
  rw [addOption_get]
  simp [opt, InputOption.convert, h, ok_bind, pure_eq_ok]

theorem added_bool (s : Section) {key v : String} {x : Bool} (b : Bool) (d : OptVal ℝ) (h : toBool v = some x) :
    (opt key .bool b none d).parse c (addOption s key v) = .ok (.base (.bool x)) := by
  unfold InputOption.parse
  rw [addOption_get]
  simp [opt, InputOption.convert, h, ok_bind, pure_eq_ok]

theorem added_str (s : Section) (key v : String) (b : Bool) (d : OptVal ℝ) :
    (opt key .str b none d).parse c (addOption s key v) = .ok (.base (.str v)) := by
  unfold InputOption.parse
  rw [addOption_get]
  simp [opt, InputOption.convert, ok_bind, pure_eq_ok]

theorem swap_self {V : Type} (key : String) (x : V) (d : Dict V) : d.swap key x x = d := by
  unfold Dict.swap
  have : (fun p : String × V => (p.1, swapVal key x x p.1 p.2)) = id := by
    funext p
    have : swapVal key x x p.1 p.2 = p.2 := by
      unfold swapVal
      split_ifs with h
      · exact h.2.symm
      · rfl
    rw [this]; rfl
  rw [this, List.map_id]

theorem map_same {α : Type} (x : Except PyErr α) {g : α → α} (h : ∀ a, g a = a) : x.map g = x := by
  cases x with
  | error e => rfl
  | ok a => simp [Except.map, h]

theorem parse_mass (s : Section) (v : String) (hm : s.entries.get? "mass" = none) (h : c.toFloat v = some 1) :
    parseParticles 1 c (addOption s "mass" v) = parseParticles 1 c s := by
  have ho : particlesOptions 1 c (addOption s "mass" v) = particlesOptions 1 c s := by
    unfold particlesOptions
    dsimp only
    rw [addOption_parse c s _ _ _ (show (opt "initial-distribution" .str true (some (oneOf initialDistributions)) : InputOption ℝ).key ≠ "mass" by
        simp [opt]), numbered_congr (addOption s "mass" v) s "pos" "" fun n => ?_]
    rw [addOption_get, if_neg (numKey_ne_prefix _ _ _ _ (by decide))]
  unfold parseParticles
  rw [ho]
  cases hos : particlesOptions 1 c s with
  | error e => rfl
  | ok os =>
    rw [ok_bind, ok_bind, parseSection_swap c s "mass" v hm (.base (.float 1)) (.base (.float 1)) os ?_]
    · exact map_same _ fun d => swap_self _ _ d
    · intro o hmem hkey
      unfold particlesOptions at hos
      obtain ⟨dist, h1, hos⟩ := bind_ok hos
      obtain ⟨pos, h2, hos⟩ := bind_ok hos
      have hpos : ∀ o ∈ pos, o.key ≠ "mass" := by
        have key : ∀ n : Nat, ∀ o ∈ (List.range n).map (fun i => (optList (numKey "pos" "" (i + 1)) .float true : InputOption ℝ)),
            o.key ≠ "mass" := by
          intro n o ho
          obtain ⟨i, -, rfl⟩ := List.mem_map.1 ho
          exact numKey_ne_prefix _ _ _ _ (by decide)
        split at h2
        · obtain ⟨vals, -, h2⟩ := bind_ok h2
          cases h2
          exact key _
        · obtain ⟨vals, -, h2⟩ := bind_ok h2
          cases h2
          exact key _
        · cases h2
          intro o ho; cases ho
      cases hos
      rw [List.mem_append, List.mem_append] at hmem
      rcases hmem with (hmem | hmem) | hmem
      · simp only [List.mem_cons, List.not_mem_nil, or_false] at hmem
        rcases hmem with rfl | rfl | rfl | rfl
        · simp [opt] at hkey
        · exact ⟨rfl, rfl, added_float c s _ _ h one_pos⟩
        · simp [opt] at hkey
        · simp [opt] at hkey
      · exact absurd hkey (hpos o hmem)
      · split at hmem
        · simp only [List.mem_cons, List.not_mem_nil, or_false] at hmem
          subst hmem
          simp [optList] at hkey
        · cases hmem

theorem parse_scaling (s : Section) (v : String) (hm : s.entries.get? "scaling-factor" = none) (h : c.toFloat v = some 1) :
    parsePotential c (addOption s "scaling-factor" v) =
      (parsePotential c s).map (Dict.swap "scaling-factor" .none (.base (.float 1))) := by
  have ho : potentialOptions c (addOption s "scaling-factor" v) = potentialOptions c s := by
    unfold potentialOptions
    rw [addOption_parse c s _ _ _ (show (opt "type" .str true : InputOption ℝ).key ≠ "scaling-factor" by simp [opt]),
      addOption_parse c s _ _ _ (show (opt "n_dim" .int true (some atMost3dim) : InputOption ℝ).key ≠ "scaling-factor" by simp [opt])]
    rfl
  unfold parsePotential
  rw [ho]
  refine bind_map_same fun os hos => parseSection_swap c s _ v hm _ _ os fun o hmem hkey => ?_
  unfold potentialOptions at hos
  obtain ⟨t, h1, hos⟩ := bind_ok hos
  obtain ⟨os', h2, hos⟩ := bind_ok hos
  cases hos
  rw [List.mem_append] at hmem
  rcases hmem with hmem | hmem
  · split at h2
    · obtain ⟨nd, -, h2⟩ := bind_ok h2
      cases h2
      exfalso
      unfold polyOptions at hmem
      split at hmem <;> simp only [List.mem_cons, List.not_mem_nil, or_false] at hmem <;>
        rcases hmem with rfl | rfl | rfl | rfl | rfl <;> simp [opt, optList] at hkey
    · cases h2
      simp only [List.mem_cons, List.not_mem_nil, or_false] at hmem
      rcases hmem with rfl | rfl | rfl
      · simp [opt] at hkey
      · exact ⟨rfl, rfl, added_any_float c s _ _ h⟩
      · simp [opt] at hkey
    · cases h2
  · simp only [List.mem_cons, List.not_mem_nil, or_false] at hmem
    subst hmem
    simp [opt] at hkey

theorem stateOptions_keys (s : Section) (states : List (InputOption ℝ)) (h : numberedStateOptions s = .ok states) :
    ∀ o ∈ states, ∃ suf i, o.key = numKey "state" suf i := by
  unfold numberedStateOptions at h
  obtain ⟨mins, -, h⟩ := bind_ok h
  obtain ⟨maxs, -, h⟩ := bind_ok h
  split_ifs at h
  · cases h
  · simp only [pure_eq_ok] at h
    split_ifs at h
    · cases h
    · cases h
      intro o ho
      obtain ⟨i, -, hi⟩ := List.mem_flatMap.1 ho
      simp only [List.mem_cons, List.not_mem_nil, or_false] at hi
      rcases hi with rfl | rfl
      · exact ⟨_, _, rfl⟩
      · exact ⟨_, _, rfl⟩

theorem parse_series (s : Section) (v : String) (k : Int) (hm : s.entries.get? "write-stride" = none) (hk : 0 < k)
    (h : c.toInt v = some k) :
    parseStates c (addOption s "write-stride" v) = (parseStates c s).map (Dict.swap "write-stride" .none (.base (.int k))) := by
  have hnum : ∀ suf, numberedSection (addOption s "write-stride" v) "state" suf = numberedSection s "state" suf := by
    intro suf
    refine numbered_congr _ _ _ _ fun n => ?_
    rw [addOption_get, if_neg (numKey_ne_prefix _ _ _ _ (by decide))]
  have ho : (stateActionOptions (addOption s "write-stride" v) : Except PyErr (List (InputOption ℝ))) = stateActionOptions s := by
    unfold stateActionOptions numberedStateOptions
    rw [hnum, hnum]
    rfl
  unfold parseStates
  rw [ho]
  refine bind_map_same fun os hos => parseSection_swap c s _ v hm _ _ os fun o hmem hkey => ?_
  unfold stateActionOptions at hos
  obtain ⟨states, h1, hos⟩ := bind_ok hos
  cases hos
  rw [List.mem_append] at hmem
  rcases hmem with hmem | hmem
  · simp only [List.mem_cons, List.not_mem_nil, or_false] at hmem
    rcases hmem with rfl | rfl | rfl | rfl
    · simp [opt] at hkey
    · simp [opt] at hkey
    · exact ⟨rfl, rfl, added_int c s _ _ h hk⟩
    · simp [opt] at hkey
  · obtain ⟨suf, i, e⟩ := stateOptions_keys s states h1 o hmem
    rw [e] at hkey
    exact absurd hkey (numKey_ne_prefix _ _ _ _ (by decide))

end

/-! ### Set-up with the default values -/

section
variable {R : Type} (w : World R)

theorem setup_trajStride (d : Nat) (o : Dict (OptVal ℝ)) (dt : ℝ) (n : Nat) :
    setupTrajectories w d (o.swap "stride" .none (.base (.int 1))) dt n = setupTrajectories w d o dt n := by
  unfold setupTrajectories
  simp only [swap_ne _ _ _ o (show "filename" ≠ "stride" by decide), swap_ne _ _ _ o (show "momentum" ≠ "stride" by decide),
    swap_ne _ _ _ o (show "write-stride" ≠ "stride" by decide)]
  exact swap_eq _ _ _ _ _ (by simp [OptVal.asOptStride, ok_bind, TrajCfg.new, pyOrNat])

theorem setup_trajWrite (d : Nat) (o : Dict (OptVal ℝ)) (dt : ℝ) (n : Nat) :
    setupTrajectories w d (o.swap "write-stride" .none (.base (.int 100))) dt n = setupTrajectories w d o dt n := by
  unfold setupTrajectories
  simp only [swap_ne _ _ _ o (show "filename" ≠ "write-stride" by decide), swap_ne _ _ _ o (show "momentum" ≠ "write-stride" by decide),
    swap_ne _ _ _ o (show "stride" ≠ "write-stride" by decide)]
  refine bind_congr fun _ => bind_congr fun _ => bind_congr fun _ => bind_congr fun _ => bind_congr fun _ => bind_congr fun _ => ?_
  exact swap_eq _ _ _ _ _ (by simp [OptVal.asOptStride, ok_bind, TrajCfg.new, pyOrNat])

theorem setup_momentum (d : Nat) (o : Dict (OptVal ℝ)) (dt : ℝ) (n : Nat) :
    setupTrajectories w d (o.swap "momentum" .none (.base (.bool false))) dt n = setupTrajectories w d o dt n := by
  unfold setupTrajectories
  simp only [swap_ne _ _ _ o (show "filename" ≠ "momentum" by decide), swap_ne _ _ _ o (show "write-stride" ≠ "momentum" by decide),
    swap_ne _ _ _ o (show "stride" ≠ "momentum" by decide)]
  refine bind_congr fun _ => bind_congr fun _ => bind_congr fun _ => bind_congr fun _ => ?_
  exact swap_eq _ _ _ _ _ (by simp [OptVal.asFlag, ok_bind])

theorem setup_histStride (d : Nat) (o : Dict (OptVal ℝ)) (t : TrajCfg ℝ) :
    setupHistogram d (o.swap "stride" .none (.base (.int 1))) t = setupHistogram d o t := by
  unfold setupHistogram singleRange zipRanges
  simp only [swap_ne _ _ _ o (show "filename" ≠ "stride" by decide), swap_ne _ _ _ o (show "min" ≠ "stride" by decide),
    swap_ne _ _ _ o (show "max" ≠ "stride" by decide), swap_ne _ _ _ o (show "bins" ≠ "stride" by decide),
    swap_ne _ _ _ o (show "reset" ≠ "stride" by decide), swap_ne _ _ _ o (show "write-stride" ≠ "stride" by decide)]
  refine bind_congr fun _ => ?_
  exact swap_eq _ _ _ _ _ (by simp [OptVal.asOptStride, ok_bind, HistCfg.new, pyOrNat])

theorem setup_factor {d : Nat} (o : Dict (OptVal ℝ)) (c : LdCfg ℝ d) :
    setupBirthDeath w (o.swap "exponential-factor" .none (.base (.float 1))) c = setupBirthDeath w o c := by
  unfold setupBirthDeath bdBandwidth approxVariantOf getApproxVariant
  simp only [List.foldlM_cons, List.foldlM_nil, swap_ne _ _ _ o (show "kernel-bandwidth" ≠ "exponential-factor" by decide),
    swap_ne _ _ _ o (show "correction-variant" ≠ "exponential-factor" by decide),
    swap_ne _ _ _ o (show "approximation-variant" ≠ "exponential-factor" by decide),
    swap_ne _ _ _ o (show "stride" ≠ "exponential-factor" by decide),
    swap_ne _ _ _ o (show "recalculate-probabilities" ≠ "exponential-factor" by decide),
    swap_ne _ _ _ o (show "stats-stride" ≠ "exponential-factor" by decide), swap_ne _ _ _ o (show "seed" ≠ "exponential-factor" by decide)]
  refine bind_congr fun _ => bind_congr fun _ => bind_congr fun _ => bind_congr fun _ => ?_
  exact swap_eq _ _ _ _ _ (by simp [OptVal.asOptFloat, ok_bind, rateFactor])

theorem setup_recalculate {d : Nat} (o : Dict (OptVal ℝ)) (c : LdCfg ℝ d) :
    setupBirthDeath w (o.swap "recalculate-probabilities" (.base (.bool false)) (.base (.bool false))) c = setupBirthDeath w o c := by
  rw [swap_self]

theorem approx_original {v : String} (h : v = "original" ∨ v = "orig") (o : Dict (OptVal ℝ)) (key : String) :
    getApproxVariant (o.swap key .none (.base (.str v))) key = getApproxVariant o key ∨
      (getApproxVariant (o.swap key .none (.base (.str v))) key = .ok (some .orig) ∧ getApproxVariant o key = .ok none) := by
  unfold getApproxVariant Dict.getItem
  rw [swap_get]
  cases o.get? key with
  | none => left; rfl
  | some x =>
    by_cases hx : x = .none
    · right
      subst hx
      constructor
      · rcases h with rfl | rfl <;>
          simp [swapVal_eq, ok_bind, OptVal.asOptStr, truthyStr, approxFromStr, pure_eq_ok]
      · simp [ok_bind, OptVal.asOptStr, truthyStr, pure_eq_ok]
    · left
      simp [swapVal, hx]

theorem approx_ne {key key' : String} (hk : key' ≠ key) (o : Dict (OptVal ℝ)) (old new : OptVal ℝ) :
    getApproxVariant (o.swap key old new) key' = getApproxVariant o key' := by
  unfold getApproxVariant
  rw [swap_ne _ _ _ _ hk]

theorem variant_correction {v : String} (h : v = "original" ∨ v = "orig") (o : Dict (OptVal ℝ)) :
    approxVariantOf (o.swap "correction-variant" .none (.base (.str v))) = approxVariantOf o := by
  unfold approxVariantOf
  simp only [List.foldlM_cons, List.foldlM_nil, approx_ne (show "approximation-variant" ≠ "correction-variant" by decide)]
  rcases approx_original h o "correction-variant" with e | ⟨e1, e2⟩
  · rw [e]
  · rw [e1, e2]; rfl

theorem variant_approximation {v : String} (h : v = "original" ∨ v = "orig") (o : Dict (OptVal ℝ))
    (hc : o.get? "correction-variant" = some .none) :
    approxVariantOf (o.swap "approximation-variant" .none (.base (.str v))) = approxVariantOf o := by
  unfold approxVariantOf
  simp only [List.foldlM_cons, List.foldlM_nil, approx_ne (show "correction-variant" ≠ "approximation-variant" by decide)]
  rw [show getApproxVariant o "correction-variant" = .ok none by
    simp [getApproxVariant, Dict.getItem, hc, ok_bind, OptVal.asOptStr, truthyStr, pure_eq_ok]]
  rcases approx_original h o "approximation-variant" with e | ⟨e1, e2⟩
  · rw [e]
  · rw [e1, e2]; rfl

theorem setup_variant {d : Nat} (o : Dict (OptVal ℝ)) (c : LdCfg ℝ d) {key : String} (new : OptVal ℝ)
    (hk : key = "correction-variant" ∨ key = "approximation-variant")
    (h : approxVariantOf (o.swap key .none new) = approxVariantOf o) :
    setupBirthDeath w (o.swap key .none new) c = setupBirthDeath w o c := by
  unfold setupBirthDeath bdBandwidth
  rw [h]
  rcases hk with rfl | rfl
  · simp only [swap_ne _ _ _ o (show "kernel-bandwidth" ≠ "correction-variant" by decide),
      swap_ne _ _ _ o (show "stride" ≠ "correction-variant" by decide),
      swap_ne _ _ _ o (show "exponential-factor" ≠ "correction-variant" by decide),
      swap_ne _ _ _ o (show "recalculate-probabilities" ≠ "correction-variant" by decide),
      swap_ne _ _ _ o (show "stats-stride" ≠ "correction-variant" by decide), swap_ne _ _ _ o (show "seed" ≠ "correction-variant" by decide)]
  · simp only [swap_ne _ _ _ o (show "kernel-bandwidth" ≠ "approximation-variant" by decide),
      swap_ne _ _ _ o (show "stride" ≠ "approximation-variant" by decide),
      swap_ne _ _ _ o (show "exponential-factor" ≠ "approximation-variant" by decide),
      swap_ne _ _ _ o (show "recalculate-probabilities" ≠ "approximation-variant" by decide),
      swap_ne _ _ _ o (show "stats-stride" ≠ "approximation-variant" by decide), swap_ne _ _ _ o (show "seed" ≠ "approximation-variant" by decide)]

theorem setup_scaling (o : Dict (OptVal ℝ)) :
    setupPotential w (o.swap "scaling-factor" .none (.base (.float 1))) = setupPotential w o := by
  unfold setupPotential setupPolynomial singleRange zipRanges
  simp only [swap_ne _ _ _ o (show "type" ≠ "scaling-factor" by decide), swap_ne _ _ _ o (show "n_dim" ≠ "scaling-factor" by decide),
    swap_ne _ _ _ o (show "min" ≠ "scaling-factor" by decide), swap_ne _ _ _ o (show "max" ≠ "scaling-factor" by decide),
    swap_ne _ _ _ o (show "coeffs" ≠ "scaling-factor" by decide), swap_ne _ _ _ o (show "coeffs-file" ≠ "scaling-factor" by decide),
    swap_ne _ _ _ o (show "boundary-condition" ≠ "scaling-factor" by decide)]
  refine bind_congr fun t => ?_
  split
  · rfl
  · congr 1
    exact swap_eq _ _ _ _ _ (by simp [OptVal.asOptFloat, MB.create])
  · rfl

theorem oneDim_scaling (o : Dict (OptVal ℝ)) (old new : OptVal ℝ) : isOneDim (o.swap "scaling-factor" old new) = isOneDim o := by
  unfold isOneDim
  rw [swap_get]
  cases o.get? "n_dim" with
  | none => rfl
  | some x => simp [swapVal_ne _ _ (show "n_dim" ≠ "scaling-factor" by decide)]

theorem series_default (k : Nat) (hk : 0 < k) (t : Nat → ℝ) :
    SeriesCfg.new (some k) (some (100 * k)) true t = SeriesCfg.new (some k) none true t := by
  have h1 : k ≠ 0 := by omega
  have h2 : 100 * k ≠ 0 := by omega
  have e : ∀ m d : Nat, m ≠ 0 → pyOrNat (some m) d = m ∧ truthyNat (some m) = true := by
    intro m d hm
    obtain ⟨j, rfl⟩ := Nat.exists_eq_succ_of_ne_zero hm
    exact ⟨rfl, rfl⟩
  unfold SeriesCfg.new
  dsimp only
  rw [(e k 0 h1).1, (e k 0 h1).2, (e _ _ h2).1, (e _ 0 h2).2]
  simp [pyOrNat, truthyNat, Nat.mul_comm k 100]

theorem states_swap (o : Dict (OptVal ℝ)) (old new : OptVal ℝ) : stateRanges (o.swap "write-stride" old new) = stateRanges o := by
  unfold stateRanges
  rw [swap_numbered _ _ _ _ _ _ fun n => numKey_ne_prefix _ _ _ _ (by decide),
    swap_numbered _ _ _ _ _ _ fun n => numKey_ne_prefix _ _ _ _ (by decide)]

theorem setup_deltaF (o : Dict (OptVal ℝ)) (kt dt : ℝ) (h : Histogram ℝ) (k : Int) (f : String) (hk : 0 < k) (hf : f ≠ "")
    (h1 : o.get? "stride" = some (.base (.int k))) (h2 : o.get? "filename" = some (.base (.str f))) :
    setupDeltaFAction w (o.swap "write-stride" .none (.base (.int (100 * k)))) kt dt h = setupDeltaFAction w o kt dt h := by
  unfold setupDeltaFAction
  rw [states_swap]
  simp only [swap_ne _ _ _ o (show "stride" ≠ "write-stride" by decide), swap_ne _ _ _ o (show "filename" ≠ "write-stride" by decide)]
  rw [show o.getItem "stride" = .ok (.base (.int k)) by simp [Dict.getItem, h1],
    show o.getItem "filename" = .ok (.base (.str f)) by simp [Dict.getItem, h2]]
  simp only [ok_bind, OptVal.asOptStride, OptVal.asOptStr]
  refine bind_congr fun _ => bind_congr fun _ => swap_eq _ _ _ _ _ ?_
  simp only [ok_bind]
  rw [show truthyStr (some f) = true by simp [truthyStr, hf], show (100 * k).toNat = 100 * k.toNat by omega,
    series_default _ (by omega)]

theorem setup_distribution (o : Dict (OptVal ℝ)) (k : Int) (f : String) (hk : 0 < k) (hf : f ≠ "")
    (h1 : o.get? "stride" = some (.base (.int k))) (h2 : o.get? "filename" = some (.base (.str f))) :
    setupDistribution w (o.swap "write-stride" .none (.base (.int (100 * k)))) = setupDistribution w o := by
  unfold setupDistribution
  rw [states_swap]
  simp only [swap_ne _ _ _ o (show "stride" ≠ "write-stride" by decide), swap_ne _ _ _ o (show "filename" ≠ "write-stride" by decide)]
  rw [show o.getItem "stride" = .ok (.base (.int k)) by simp [Dict.getItem, h1],
    show o.getItem "filename" = .ok (.base (.str f)) by simp [Dict.getItem, h2]]
  simp only [ok_bind, OptVal.asOptStride, OptVal.asOptStr]
  refine bind_congr fun _ => swap_eq _ _ _ _ _ ?_
  simp only [ok_bind]
  rw [show truthyStr (some f) = true by simp [truthyStr, hf], show (100 * k).toNat = 100 * k.toNat by omega,
    series_default _ (by omega)]

/-! ### The whole program -/

theorem mainFrom_birthDeath (inp : Input ℝ) (g : Dict (OptVal ℝ) → Dict (OptVal ℝ))
    (h : ∀ o, inp.birthDeath = some o → ∀ (d : Nat) (c : LdCfg ℝ d), setupBirthDeath w (g o) c = setupBirthDeath w o c) : mainFrom w (onBirthDeath g inp) = mainFrom w inp := by
  have hs : ∀ (d : Nat) (c : SimCfg d) (s : Sim d R), setupOptional w (onBirthDeath g inp) c s = setupOptional w inp c s := by
    intro d c s
    unfold setupOptional onBirthDeath
    cases ho : inp.birthDeath with
    | none => rfl
    | some o => simp only [Option.map_some, h o ho]
  unfold mainFrom
  rw [show setupRequired w (onBirthDeath g inp) = setupRequired w inp from rfl]
  simp only [hs]
  rfl

theorem mainFrom_trajectories (inp : Input ℝ) (g : Dict (OptVal ℝ) → Dict (OptVal ℝ))
    (h : ∀ o, inp.trajectories = some o → ∀ (d : Nat) (dt : ℝ) (n : Nat), setupTrajectories w d (g o) dt n = setupTrajectories w d o dt n) : mainFrom w (onTrajectories g inp) = mainFrom w inp := by
  have hs : ∀ (d : Nat) (c : SimCfg d) (s : Sim d R), setupOptional w (onTrajectories g inp) c s = setupOptional w inp c s := by
    intro d c s
    unfold setupOptional onTrajectories
    cases ho : inp.trajectories with
    | none => rfl
    | some o => simp only [Option.map_some, h o ho]
  unfold mainFrom
  rw [show setupRequired w (onTrajectories g inp) = setupRequired w inp from rfl]
  simp only [hs]
  rfl

theorem mainFrom_histogram (inp : Input ℝ) (g : Dict (OptVal ℝ) → Dict (OptVal ℝ))
    (h : ∀ o, inp.histogram = some o → ∀ (d : Nat) (t : TrajCfg ℝ), setupHistogram d (g o) t = setupHistogram d o t) : mainFrom w (onHistogram g inp) = mainFrom w inp := by
  have hs : ∀ (d : Nat) (c : SimCfg d) (s : Sim d R), setupOptional w (onHistogram g inp) c s = setupOptional w inp c s := by
    intro d c s
    unfold setupOptional onHistogram
    cases ho : inp.histogram with
    | none => rfl
    | some o => simp only [Option.map_some, h o ho]
  unfold mainFrom
  rw [show setupRequired w (onHistogram g inp) = setupRequired w inp from rfl]
  simp only [hs]
  rfl

theorem mainFrom_deltaF (inp : Input ℝ) (g : Dict (OptVal ℝ) → Dict (OptVal ℝ))
    (h : ∀ o, inp.deltaF = some o → ∀ (kt dt : ℝ) (hi : Histogram ℝ), setupDeltaFAction w (g o) kt dt hi = setupDeltaFAction w o kt dt hi) : mainFrom w (onDeltaF g inp) = mainFrom w inp := by
  have hs : ∀ (d : Nat) (c : SimCfg d) (s : Sim d R), setupOptional w (onDeltaF g inp) c s = setupOptional w inp c s := by
    intro d c s
    unfold setupOptional onDeltaF
    cases ho : inp.deltaF with
    | none => rfl
    | some o => simp only [Option.map_some, h o ho]
  unfold mainFrom
  rw [show setupRequired w (onDeltaF g inp) = setupRequired w inp from rfl]
  simp only [hs]
  rfl

theorem mainFrom_distribution (inp : Input ℝ) (g : Dict (OptVal ℝ) → Dict (OptVal ℝ))
    (h : ∀ o, inp.particleDistribution = some o → setupDistribution w (g o) = setupDistribution w o) : mainFrom w (onDistribution g inp) = mainFrom w inp := by
  have hs : ∀ (d : Nat) (c : SimCfg d) (s : Sim d R), setupOptional w (onDistribution g inp) c s = setupOptional w inp c s := by
    intro d c s
    unfold setupOptional onDistribution
    cases ho : inp.particleDistribution with
    | none => rfl
    | some o => simp only [Option.map_some, h o ho]
  unfold mainFrom
  rw [show setupRequired w (onDistribution g inp) = setupRequired w inp from rfl]
  simp only [hs]
  rfl

theorem mainFrom_potential (inp : Input ℝ) (g : Dict (OptVal ℝ) → Dict (OptVal ℝ))
    (h : setupPotential w (g inp.potential) = setupPotential w inp.potential) : mainFrom w (onPotential g inp) = mainFrom w inp := by
  unfold mainFrom
  have hr : setupRequired w (onPotential g inp) = setupRequired w inp := by
    unfold setupRequired onPotential
    simp only [h]
  rw [hr]
  rfl

/-- From the parsed input to the whole program. -/
theorem program_of_parse (cfg cfg' : List Section) (g : Input ℝ → Input ℝ)
    (hp : parseAll 1 w.conv (some cfg') = (parseAll 1 w.conv (some cfg)).map g)
    (hm : ∀ inp, parseAll 1 w.conv (some cfg) = .ok inp → mainFrom w (g inp) = mainFrom w inp) :
    mainProgram w (some cfg') = mainProgram w (some cfg) := by
  unfold mainProgram
  rw [hp]
  cases h : parseAll 1 w.conv (some cfg) with
  | error e => rfl
  | ok inp => exact hm inp h

theorem optional_some {cfg : List Section} {name : String} {f : Section → Except PyErr (Dict (OptVal ℝ))} {o : Dict (OptVal ℝ)}
    (h : parseOptional cfg name f = .ok (some o)) : ∃ s, findSection cfg name = some s ∧ f s = .ok o := by
  unfold parseOptional at h
  cases hs : findSection cfg name with
  | none => rw [hs] at h; cases h
  | some s =>
    rw [hs] at h
    refine ⟨s, rfl, ?_⟩
    cases hf : f s with
    | error e => simp [hf] at h
    | ok d => simpa [hf] using h

theorem series_nodup (s : Section) (states : List (InputOption ℝ)) (h3 : numberedStateOptions s = .ok states) :
    (([opt "stride" .int false (some positive), opt "filename" .str false,
      opt "write-stride" .int false (some positive), opt "fmt" .str false] ++ states : List (InputOption ℝ)).map (·.key)).Nodup := by
  obtain ⟨mins, maxs, e1, e2, hl, hp⟩ := state_options_inv s states h3
  obtain ⟨states', hs', hkeys, hst⟩ := state_options (F := ℝ) s mins maxs e1 e2 hl hp
  rw [h3] at hs'
  cases hs'
  rw [List.map_append, hkeys, List.nodup_append]
  refine ⟨by simp [opt], stateKeys_nodup _, ?_⟩
  intro a ha b hb e
  subst e
  obtain ⟨i, -, hor⟩ := (stateKeys_mem _ _).mp hb
  simp only [opt, List.map_cons, List.map_nil, List.mem_cons, List.not_mem_nil, or_false] at ha
  rcases hor with e | e
  · refine numKey_ne_prefix "state" "-min" a (i + 1) ?_ e.symm
    rcases ha with rfl | rfl | rfl | rfl <;> decide
  · refine numKey_ne_prefix "state" "-max" a (i + 1) ?_ e.symm
    rcases ha with rfl | rfl | rfl | rfl <;> decide

/-- The parsed values of stride and filename of a series. -/
theorem series_values (c : Conv ℝ) (s : Section) (o : Dict (OptVal ℝ)) (h : parseStates c s = .ok o) {t f : String} {k : Int} (hk : 0 < k)
    (hs : s.entries.get? "stride" = some (.ok t)) (ht : c.toInt t = some k) (hf : s.entries.get? "filename" = some (.ok f)) :
    o.get? "stride" = some (.base (.int k)) ∧ o.get? "filename" = some (.base (.str f)) := by
  unfold parseStates stateActionOptions at h
  obtain ⟨os, h1, h2⟩ := bind_ok h
  obtain ⟨states, h3, h4⟩ := bind_ok h1
  cases h4
  have hn := series_nodup s states h3
  constructor
  · refine parsed_get c h2 hn (opt "stride" .int false (some positive)) (by simp) _ ?_
    unfold InputOption.parse
    simp only [opt, hs]
    simp [InputOption.convert, ht, ok_bind, pure_eq_ok, positive, gtZero, cmpNum, hk]
  · refine parsed_get c h2 hn (opt "filename" .str false) (by simp) _ ?_
    unfold InputOption.parse
    simp only [opt, hf]
    simp [InputOption.convert, ok_bind, pure_eq_ok]

/-- **C128.** Writing the documented default of an option into its section does not change what the program does. -/
theorem default_written_partial (cfg : List Section) (name key value : String)
    (h : ∀ s, findSection cfg name = some s → s.entries.get? key = none ∧ DocumentedDefault w.conv s name key value) :
    mainProgram w (some (withOption cfg name key value)) = mainProgram w (some cfg) := by
  cases hs : findSection cfg name with
  | none =>
    refine congrArg (mainProgram w) (congrArg some ?_)
    unfold withOption
    refine (List.map_congr_left fun s hmem => ?_).trans (List.map_id _)
    rw [if_neg]
    · rfl
    · intro e
      have := List.find?_eq_none.1 hs s hmem
      simp [e] at this
  | some s =>
    obtain ⟨hm, hd⟩ := h s hs
    have only : ∀ s', findSection cfg name = some s' → s' = s := fun s' e => by rw [hs] at e; cases e; rfl
    cases hd with
    | mass hv =>
      unfold mainProgram
      rw [parseAll_particles w.conv cfg _ _ fun s' e => by rw [only s' e]; exact parse_mass w.conv s value hm hv]
    | scaling hv =>
      refine program_of_parse w cfg _ _ (parseAll_potential w.conv cfg _ _ _
        (fun s' e => by rw [only s' e]; exact parse_scaling w.conv s value hm hv) fun d => oneDim_scaling d _ _) fun inp _ => ?_
      exact mainFrom_potential w inp _ (setup_scaling w _)
    | recalculate hv =>
      refine program_of_parse w cfg _ _ (parseAll_birthDeath w.conv cfg _ _ _
        (fun s' b e => by
          rw [only s' e]
          refine parseSection_swap w.conv s _ value hm (.base (.bool false)) (.base (.bool false)) _ fun o ho hk => ?_
          cases b <;>
          · simp [birthDeathOptions] at ho
            rcases ho with rfl | rfl | rfl | rfl | rfl | rfl | rfl | rfl | rfl <;> first
              | exact ⟨rfl, rfl, added_bool w.conv s _ _ hv⟩
              | simp [opt, optList] at hk)) fun inp _ => ?_
      exact mainFrom_birthDeath w inp _ fun o _ d c => setup_recalculate w o c
    | factor hv =>
      refine program_of_parse w cfg _ _ (parseAll_birthDeath w.conv cfg _ _ _
        (fun s' b e => by
          rw [only s' e]
          refine parseSection_swap w.conv s _ value hm .none (.base (.float 1)) _ fun o ho hk => ?_
          cases b <;>
          · simp [birthDeathOptions] at ho
            rcases ho with rfl | rfl | rfl | rfl | rfl | rfl | rfl | rfl | rfl <;> first
              | exact ⟨rfl, rfl, added_float w.conv s _ _ hv one_pos⟩
              | simp [opt, optList] at hk)) fun inp _ => ?_
      exact mainFrom_birthDeath w inp _ fun o _ d c => setup_factor w o c
    | correction hv =>
      refine program_of_parse w cfg _ _ (parseAll_birthDeath w.conv cfg _ _ _
        (fun s' b e => by
          rw [only s' e]
          refine parseSection_swap w.conv s _ value hm .none (.base (.str value)) _ fun o ho hk => ?_
          cases b <;>
          · simp [birthDeathOptions] at ho
            rcases ho with rfl | rfl | rfl | rfl | rfl | rfl | rfl | rfl | rfl <;> first
              | exact ⟨rfl, rfl, added_str w.conv s _ _ _ _⟩
              | simp [opt, optList] at hk)) fun inp _ => ?_
      exact mainFrom_birthDeath w inp _ fun o _ d c => setup_variant w o c _ (.inl rfl) (variant_correction hv o)
    | approximation hv hc =>
      refine program_of_parse w cfg _ _ (parseAll_birthDeath w.conv cfg _ _ _
        (fun s' b e => by
          rw [only s' e]
          refine parseSection_swap w.conv s _ value hm .none (.base (.str value)) _ fun o ho hk => ?_
          cases b <;>
          · simp [birthDeathOptions] at ho
            rcases ho with rfl | rfl | rfl | rfl | rfl | rfl | rfl | rfl | rfl <;> first
              | exact ⟨rfl, rfl, added_str w.conv s _ _ _ _⟩
              | simp [opt, optList] at hk)) fun inp hp => ?_
      refine mainFrom_birthDeath w inp _ fun o ho d c => setup_variant w o c _ (.inr rfl) (variant_approximation hv o ?_)
      obtain ⟨_, _, _, _, e, -, -, -, -, -, -, hb, -⟩ := parseAll_inv (c := w.conv) 1 _ inp hp
      cases e
      rw [ho] at hb
      obtain ⟨s', hs', hb⟩ := optional_some hb
      rw [only s' hs'] at hb
      refine parsed_get w.conv hb ?_ (opt "correction-variant" .str false) (by simp [birthDeathOptions]) _ ?_
      · cases isOneDim inp.potential <;> simp [birthDeathOptions, opt, optList]
      · exact option_default w.conv _ s ((Dict.get?_none _ _).1 hc) rfl
    | trajStride hv =>
      refine program_of_parse w cfg _ _ (parseAll_trajectories w.conv cfg _ _ _
        (fun s' e => by
          rw [only s' e]
          refine parseSection_swap w.conv s _ value hm .none (.base (.int 1)) _ fun o ho hk => ?_
          simp [trajectoriesOptions] at ho
          rcases ho with rfl | rfl | rfl | rfl | rfl <;> first
            | exact ⟨rfl, rfl, added_int w.conv s _ _ hv one_pos⟩
            | simp [opt] at hk)) fun inp _ => ?_
      exact mainFrom_trajectories w inp _ fun o _ d dt n => setup_trajStride w d o dt n
    | trajWrite hv =>
      refine program_of_parse w cfg _ _ (parseAll_trajectories w.conv cfg _ _ _
        (fun s' e => by
          rw [only s' e]
          refine parseSection_swap w.conv s _ value hm .none (.base (.int 100)) _ fun o ho hk => ?_
          simp [trajectoriesOptions] at ho
          rcases ho with rfl | rfl | rfl | rfl | rfl <;> first
            | exact ⟨rfl, rfl, added_int w.conv s _ _ hv (by norm_num)⟩
            | simp [opt] at hk)) fun inp _ => ?_
      exact mainFrom_trajectories w inp _ fun o _ d dt n => setup_trajWrite w d o dt n
    | momentum hv =>
      refine program_of_parse w cfg _ _ (parseAll_trajectories w.conv cfg _ _ _
        (fun s' e => by
          rw [only s' e]
          refine parseSection_swap w.conv s _ value hm .none (.base (.bool false)) _ fun o ho hk => ?_
          simp [trajectoriesOptions] at ho
          rcases ho with rfl | rfl | rfl | rfl | rfl <;> first
            | exact ⟨rfl, rfl, added_bool w.conv s _ _ hv⟩
            | simp [opt] at hk)) fun inp _ => ?_
      exact mainFrom_trajectories w inp _ fun o _ d dt n => setup_momentum w d o dt n
    | histStride hv =>
      refine program_of_parse w cfg _ _ (parseAll_histogram w.conv cfg _ _ _
        (fun s' b e => by
          rw [only s' e]
          refine parseSection_swap w.conv s _ value hm .none (.base (.int 1)) _ fun o ho hk => ?_
          cases b <;>
          · simp [histogramOptions] at ho
            rcases ho with rfl | rfl | rfl | rfl | rfl | rfl | rfl | rfl <;> first
              | exact ⟨rfl, rfl, added_int w.conv s _ _ hv one_pos⟩
              | simp [opt, optList] at hk)) fun inp _ => ?_
      exact mainFrom_histogram w inp _ fun o _ d t => setup_histStride d o t
    | @seriesWrite _ _ t f k hn hk h1 h2 h3 h4 hv =>
      rcases hn with rfl | rfl
      · refine program_of_parse w cfg _ _ (parseAll_deltaF w.conv cfg _ _ _
          (fun s' e => by rw [only s' e]; exact parse_series w.conv s value (100 * k) hm (by omega) hv)) fun inp hp => ?_
        refine mainFrom_deltaF w inp _ fun o ho kt dt hi => ?_
        obtain ⟨_, _, _, _, e, -, -, -, -, -, -, -, -, -, -, hb, -⟩ := parseAll_inv (c := w.conv) 1 _ inp hp
        cases e
        rw [ho] at hb
        obtain ⟨s', hs', hb⟩ := optional_some hb
        rw [only s' hs'] at hb
        split at hb
        · cases hb
        · obtain ⟨a1, a2⟩ := series_values w.conv s o hb hk h1 h2 h3
          exact setup_deltaF w o kt dt hi k f hk h4 a1 a2
      · refine program_of_parse w cfg _ _ (parseAll_distribution w.conv cfg _ _ _
          (fun s' e => by rw [only s' e]; exact parse_series w.conv s value (100 * k) hm (by omega) hv)) fun inp hp => ?_
        refine mainFrom_distribution w inp _ fun o ho => ?_
        obtain ⟨_, _, _, _, e, -, -, -, -, -, -, -, -, -, -, -, hb⟩ := parseAll_inv (c := w.conv) 1 _ inp hp
        cases e
        rw [ho] at hb
        obtain ⟨s', hs', hb⟩ := optional_some hb
        rw [only s' hs'] at hb
        obtain ⟨a1, a2⟩ := series_values w.conv s o hb hk h1 h2 h3
        exact setup_distribution w o k f hk h4 a1 a2

end

end Bdld
