import Verif.Props.FaultParse

/-
C134, part 2: the options of every section are covered by the rules.
-/

namespace Bdld
open Spec

section
variable {F : Type} (c : Conv F)

theorem covered_at {s : Section} {l : Rules} {o : InputOption F} (i : Nat) {r : Section → Prop} (hi : l[i]? = some (o.key, r))
    (hc : CondOk o) (h : r s → ∃ v, o.parse c s = .ok v) : Covered c s l o :=
  ⟨hc, .inl ⟨r, List.mem_of_getElem? hi, h⟩⟩

theorem covered_str {s : Section} (hs : PlainSection s) {l : Rules} (key : String) (d : OptVal F) :
    Covered c s l (opt key .str false none d) := ⟨condOk_none rfl, .inr (str_quiet c key s hs d)⟩

theorem covered_list {s : Section} (hs : PlainSection s) {l : Rules} (key : String) (t : BaseType) (b : Bool)
    (h : s.entries.get? key ≠ none) : Covered c s l (optList key t b) := ⟨condOk_none rfl, .inr (list_quiet c key t b s hs h)⟩

/-- A list option without condition that need not be given. -/
theorem list_optional (key : String) (t : BaseType) (s : Section) (hs : PlainSection s) (e : PyErr)
    (h : (optList key t false : InputOption F).parse c s = .error e) : caughtInput e = false := by
  cases hg : s.entries.get? key with
  | none =>
    unfold InputOption.parse at h
    simp [optList, hg] at h
  | some r => exact list_quiet c key t false s hs (by simp [hg]) e h

theorem covered_list_optional {s : Section} (hs : PlainSection s) {l : Rules} (key : String) (t : BaseType) :
    Covered c s l (optList key t false) := ⟨condOk_none rfl, .inr (list_optional c key t s hs)⟩

variable [Zero F] [LT F] [DecidableLT F]

theorem trajectories_blame {s : Section} (hs : PlainSection s) {e : PyErr}
    (h : parseSection c s trajectoriesOptions = .error e) : Blames (trajectoriesRules c) s e := by
  refine section_blame c s hs _ _ ?_ e h
  unfold trajectoriesOptions
  simp only [List.forall_mem_cons, List.not_mem_nil, IsEmpty.forall_iff, implies_true, and_true]
  exact ⟨covered_str c hs _ _, covered_at c 0 rfl (condOk_positive rfl) (perhaps_int_pos c s _ _).2,
    covered_at c 2 rfl (condOk_none rfl) (perhaps_bool c s _ _).2,
    covered_at c 1 rfl (condOk_positive rfl) (perhaps_int_pos c s _ _).2, covered_str c hs _ _⟩

theorem fes_blame {s : Section} (hs : PlainSection s) {e : PyErr}
    (h : parseSection c s fesOptions = .error e) : Blames (fesRules c) s e := by
  refine section_blame c s hs _ _ ?_ e h
  unfold fesOptions
  simp only [List.forall_mem_cons, List.not_mem_nil, IsEmpty.forall_iff, implies_true, and_true]
  exact ⟨covered_at c 2 rfl (condOk_positive rfl) (given_float_pos c s _ _).2,
    covered_at c 0 rfl (condOk_positive rfl) (perhaps_int_pos c s _ _).2, covered_str c hs _ _,
    covered_at c 1 rfl (condOk_positive rfl) (perhaps_int_pos c s _ _).2, covered_str c hs _ _,
    covered_at c 3 rfl (condOk_none rfl) (perhaps_int c s _ _).2, covered_str c hs _ _, covered_list_optional c hs _ _,
    covered_str c hs _ _⟩

omit [Zero F] [LT F] [DecidableLT F] in
theorem given_if {s : Section} {key : String} {p : Prop} {P Q : String → Prop} (h : Given s key (ifText p P Q)) :
    (p → Given s key P) ∧ (¬ p → Given s key Q) :=
  ⟨fun hp => given_mono (fun _ h => h.1 hp) h, fun hp => given_mono (fun _ h => h.2 hp) h⟩

theorem birthDeath_blame (oneDim : Bool) {p : Prop} (hp : oneDim = true ↔ p) {s : Section} (hs : PlainSection s) {e : PyErr}
    (h : parseSection c s (birthDeathOptions oneDim) = .error e) :
    Blames (birthDeathRules c p) s e := by
  refine section_blame c s hs _ _ ?_ e h
  unfold birthDeathOptions
  simp only [List.forall_mem_append, List.forall_mem_cons, List.not_mem_nil, IsEmpty.forall_iff, implies_true, and_true]
  refine ⟨⟨covered_at c 0 rfl (condOk_positive rfl) (given_int_pos c s _ _).2, covered_str c hs _ _, covered_str c hs _ _,
    covered_at c 1 rfl (condOk_positive rfl) (perhaps_float_pos c s _ _).2,
    covered_at c 2 rfl (condOk_none rfl) (perhaps_bool c s _ _).2,
    covered_at c 3 rfl (condOk_positive rfl) (perhaps_int_pos c s _ _).2, covered_str c hs _ _,
    covered_at c 4 rfl (condOk_none rfl) (perhaps_int c s _ _).2⟩, ?_⟩
  cases oneDim
  · simp only [Bool.false_eq_true, if_false, List.forall_mem_cons, List.not_mem_nil, IsEmpty.forall_iff, implies_true, and_true]
    exact covered_at c 5 rfl (condOk_all rfl) fun h => (given_floats_pos c s _).2 ((given_if h).2 fun h => by simpa using hp.2 h)
  · simp only [if_true, List.forall_mem_cons, List.not_mem_nil, IsEmpty.forall_iff, implies_true, and_true]
    exact covered_at c 5 rfl (condOk_positive rfl) fun h => (given_float_pos c s _ _).2 ((given_if h).1 (hp.1 rfl))

theorem histogram_blame (oneDim : Bool) {p : Prop} (hp : oneDim = true ↔ p) {s : Section} (hs : PlainSection s) {e : PyErr}
    (h : parseSection c s (histogramOptions oneDim) = .error e) :
    Blames (histogramRules c p) s e := by
  refine section_blame c s hs _ _ ?_ e h
  unfold histogramOptions
  simp only [List.forall_mem_append, List.forall_mem_cons, List.not_mem_nil, IsEmpty.forall_iff, implies_true, and_true]
  refine ⟨⟨covered_at c 0 rfl (condOk_positive rfl) (perhaps_int_pos c s _ _).2,
    covered_at c 2 rfl (condOk_all rfl) (perhaps_ints_pos c s _).2, covered_str c hs _ _,
    covered_at c 1 rfl (condOk_positive rfl) (perhaps_int_pos c s _ _).2, covered_str c hs _ _⟩, ?_⟩
  cases oneDim
  · have hn : ¬ p := fun h => by simpa using hp.2 h
    simp only [Bool.false_eq_true, if_false, List.forall_mem_cons, List.not_mem_nil, IsEmpty.forall_iff, implies_true, and_true]
    exact ⟨covered_at c 4 rfl (condOk_none rfl) fun h => (given_floats c s _).2 ((given_if h).2 hn),
      covered_at c 5 rfl (condOk_none rfl) fun h => (given_floats c s _).2 ((given_if h).2 hn),
      covered_at c 3 rfl (condOk_all rfl) fun h => (given_ints_pos c s _).2 ((given_if h).2 hn)⟩
  · have hn : p := hp.1 rfl
    simp only [if_true, List.forall_mem_cons, List.not_mem_nil, IsEmpty.forall_iff, implies_true, and_true]
    exact ⟨covered_at c 4 rfl (condOk_none rfl) fun h => (given_float c s _ _).2 ((given_if h).1 hn),
      covered_at c 5 rfl (condOk_none rfl) fun h => (given_float c s _ _).2 ((given_if h).1 hn),
      covered_at c 3 rfl (condOk_positive rfl) fun h => (given_int_pos c s _ _).2 ((given_if h).1 hn)⟩

/-- The error of two steps is that of one of them. -/
theorem bind_error {α β : Type} {x : Except PyErr α} {f : α → Except PyErr β} {e : PyErr} (h : (x >>= f) = .error e) :
    x = .error e ∨ ∃ a, x = .ok a ∧ f a = .error e := by
  cases x with
  | error e' => rw [error_bind] at h; exact .inl (congrArg _ (Except.error.inj h))
  | ok a => exact .inr ⟨a, rfl, h⟩

theorem ld_blame [LE F] [DecidableLE F] {s : Section} (hs : PlainSection s) {e : PyErr}
    (h : parseLd c s = .error e) : Blames (ldRules c) s e := by
  unfold parseLd at h
  rcases bind_error h with h | ⟨t, ht, h⟩
  · exact blames_quiet (str_quiet c _ s hs _ _ h)
  rcases bind_error h with h | ⟨options, ho, h⟩
  · have hne : ¬ Given s "type" fun t => t = "overdamped" ∨ t = "bussi-parinello" := by
      rintro ⟨raw, hg, hr⟩
      rw [str_given c s _ _ _ hg] at ht
      cases ht
      rcases hr with rfl | rfl <;> cases h
    unfold ldOptions at h
    split at h
    · cases h
    · cases h
    · cases h
      exact fun _ => ⟨_, rfl, _, .head _, hne⟩
  · refine section_blame c s hs _ _ ?_ e h
    have base : ∀ o ∈ ([opt "type" .str false, opt "timestep" .float true (some positiveOrZero),
        opt "n_steps" .int true (some positive), opt "seed" .int false] : List (InputOption F)), Covered c s (ldRules c) o := by
      simp only [List.forall_mem_cons, List.not_mem_nil, IsEmpty.forall_iff, implies_true, and_true]
      exact ⟨covered_str c hs _ _, covered_at c 1 rfl (condOk_nonneg rfl) (given_float_nonneg c s _ _).2,
        covered_at c 2 rfl (condOk_positive rfl) (given_int_pos c s _ _).2,
        covered_at c 3 rfl (condOk_none rfl) (perhaps_int c s _ _).2⟩
    rcases str_parse c s _ _ _ _ ht with ⟨_, rfl⟩ | ⟨raw, hg, rfl⟩
    · cases ho
    unfold ldOptions at ho
    split at ho
    · rename_i e
      cases e
      cases ho
      rw [List.forall_mem_append]
      refine ⟨base, ?_⟩
      simp only [List.forall_mem_cons, List.not_mem_nil, IsEmpty.forall_iff, implies_true, and_true]
      have hb : Given s "type" (· = "bussi-parinello") := ⟨_, hg, rfl⟩
      exact ⟨covered_at c 4 rfl (condOk_positive rfl) fun h => (given_float_pos c s _ _).2 (h hb),
        covered_at c 5 rfl (condOk_nonneg rfl) fun h => (given_float_nonneg c s _ _).2 (h hb)⟩
    · cases ho
      exact base
    · cases ho

omit [Zero F] [LT F] [DecidableLT F] in
theorem potential_blame {s : Section} (hs : PlainSection s) {e : PyErr}
    (h : parsePotential c s = .error e) : Blames (potentialRules c) s e := by
  unfold parsePotential at h
  rcases bind_error h with h | ⟨options, ho, h⟩
  · unfold potentialOptions at h
    rcases bind_error h with h | ⟨t, ht, h⟩
    · exact option_blame c hs (covered_at c 0 rfl (condOk_none rfl) fun h =>
        (given_str c s _ _).2 (given_mono (fun _ _ => trivial) h)) h
    rcases bind_error h with h' | ⟨_, _, h'⟩
    · rcases str_parse c s _ _ _ _ ht with ⟨hg, _⟩ | ⟨raw, hg, rfl⟩
      · unfold InputOption.parse at ht
        simp only [opt, hg] at ht
        cases ht
      split at h'
      · rename_i e
        cases e
        rcases bind_error h' with h | ⟨_, _, h⟩
        · exact option_blame c hs (covered_at c 1 rfl (condOk_dim rfl) fun h =>
            (given_dim c s _ _).2 (h.1 ⟨_, hg, rfl⟩)) h
        · cases h
      · cases h'
      · rename_i h1 h2
        cases h'
        refine fun _ => ⟨_, rfl, _, .head _, fun hr => ?_⟩
        rcases (given_eq hg).1 hr with rfl | rfl
        · exact h1 rfl
        · exact h2 rfl
    · cases h'
  · refine section_blame c s hs _ _ ?_ e h
    unfold potentialOptions at ho
    obtain ⟨t, h1, ho⟩ := bind_ok ho
    obtain ⟨o', h4, ho⟩ := bind_ok ho
    cases ho
    have hty : Covered c s (potentialRules c) (opt "type" .str true) :=
      covered_at c 0 rfl (condOk_none rfl) fun h => (given_str c s _ _).2 (given_mono (fun _ _ => trivial) h)
    rw [List.forall_mem_append]
    refine ⟨?_, by simpa using covered_str c hs _ _⟩
    split at h4
    · have hg : Given s "type" (· = "polynomial") := by
        rcases str_parse c s _ _ _ _ h1 with ⟨hg, e⟩ | ⟨raw, hg, e⟩
        · cases e
        · cases e; exact ⟨_, hg, rfl⟩
      obtain ⟨nd, h5, h4⟩ := bind_ok h4
      cases h4
      have hd := oneDim_parse c s _ _ _ _ (by simp) h5
      have hnd : Covered c s (potentialRules c) (opt "n_dim" .int true (some atMost3dim)) :=
        covered_at c 1 rfl (condOk_dim rfl) fun h => (given_dim c s _ _).2 (h.1 hg)
      unfold polyOptions
      split
      · have ho := hd.1 rfl
        simp only [List.forall_mem_cons, List.not_mem_nil, IsEmpty.forall_iff, implies_true, and_true]
        exact ⟨hty, hnd, covered_list_optional c hs _ _,
          covered_at c 4 rfl (condOk_none rfl) fun h => (given_float c s _ _).2 ((given_if (h hg)).1 ho),
          covered_at c 5 rfl (condOk_none rfl) fun h => (given_float c s _ _).2 ((given_if (h hg)).1 ho)⟩
      · rename_i hne
        have ho : ¬ OneDimText c s := fun h => hne (hd.2 h)
        simp only [List.forall_mem_cons, List.not_mem_nil, IsEmpty.forall_iff, implies_true, and_true]
        exact ⟨hty, hnd, covered_at c 3 rfl (condOk_none rfl) fun h => (given_str c s _ _).2 (h hg ho),
          covered_at c 4 rfl (condOk_none rfl) fun h => (given_floats c s _).2 ((given_if (h hg)).2 ho),
          covered_at c 5 rfl (condOk_none rfl) fun h => (given_floats c s _).2 ((given_if (h hg)).2 ho)⟩
    · have hg : Given s "type" (· = "mueller-brown") := by
        rcases str_parse c s _ _ _ _ h1 with ⟨hg, e⟩ | ⟨raw, hg, e⟩
        · cases e
        · cases e; exact ⟨_, hg, rfl⟩
      cases h4
      simp only [List.forall_mem_cons, List.not_mem_nil, IsEmpty.forall_iff, implies_true, and_true]
      exact ⟨hty, covered_at c 2 rfl (condOk_none rfl) fun h => (perhaps_float c s _ _).2 (h hg),
        covered_at c 1 rfl (condOk_none rfl) fun h => (perhaps_int c s _ _).2 h.2⟩
    · cases h4

omit [Zero F] [LT F] [DecidableLT F] in
theorem numberedLoop_plain (get : String → Option (Except PyErr String)) (hget : ∀ k e, get k = some (.error e) → e = .interpolationError)
    (pre suf : String) : ∀ (fuel n : Nat) (res : List String) (e : PyErr), numberedLoop get pre suf fuel n res = .error e →
      e = .interpolationError
  | 0, _, _, e, h => by cases h
  | fuel + 1, n, res, e, h => by
    rw [numberedLoop] at h
    split at h
    · cases h
    · rename_i e' he
      cases h
      exact hget _ _ he
    · exact numberedLoop_plain get hget pre suf fuel _ _ e h

omit [Zero F] [LT F] [DecidableLT F] in
theorem numberedSection_plain {s : Section} (hs : PlainSection s) (pre suf : String) (e : PyErr) (h : numberedSection s pre suf = .error e) :
    e = .interpolationError := numberedLoop_plain _ hs pre suf _ _ _ e h

theorem particles_blame [LE F] (one : F) {s : Section} (hs : PlainSection s) {e : PyErr}
    (h : parseParticles one c s = .error e) : Blames (particlesRules c) s e := by
  have hmem : ∀ t : String, t ∈ initialDistributions ↔ t = "random-global" ∨ t = "random-pos" ∨ t = "fractions-pos" := by
    intro t
    simp [initialDistributions]
  unfold parseParticles at h
  rcases bind_error h with h | ⟨options, ho, h⟩
  · unfold particlesOptions at h
    rcases bind_error h with h | ⟨t, ht, h⟩
    · exact option_blame c hs (covered_at c 3 rfl (condOk_oneOf rfl) fun h =>
        (given_oneOf c s _ _ _).2 (given_mono (fun t h => (hmem t).2 h) h)) h
    · rcases bind_error h with h | ⟨_, _, h⟩
      · split at h
        · rcases bind_error h with h | ⟨_, _, h⟩
          · exact blames_quiet (numberedSection_plain hs _ _ _ h ▸ rfl)
          · cases h
        · rcases bind_error h with h | ⟨_, _, h⟩
          · exact blames_quiet (numberedSection_plain hs _ _ _ h ▸ rfl)
          · cases h
        · cases h
      · cases h
  · refine section_blame c s hs _ _ ?_ e h
    obtain ⟨raw, hg, hm⟩ : ∃ raw, s.entries.get? "initial-distribution" = some (.ok raw) ∧ raw ∈ initialDistributions := by
      unfold particlesOptions at ho
      obtain ⟨v, hv, _⟩ := bind_ok ho
      obtain ⟨raw, h1, h2, _⟩ := (oneOf_parse c s _ _ _ _).1 hv
      exact ⟨raw, h1, h2⟩
    have base : ∀ o ∈ ([opt "number" .int true (some positive), opt "mass" .float false (some positive) (.base (.float one)),
        opt "seed" .int false, opt "initial-distribution" .str true (some (oneOf initialDistributions))] : List (InputOption F)),
        Covered c s (particlesRules c) o := by
      simp only [List.forall_mem_cons, List.not_mem_nil, IsEmpty.forall_iff, implies_true, and_true]
      exact ⟨covered_at c 0 rfl (condOk_positive rfl) (given_int_pos c s _ _).2,
        covered_at c 1 rfl (condOk_positive rfl) (perhaps_float_pos c s _ _).2,
        covered_at c 2 rfl (condOk_none rfl) (perhaps_int c s _ _).2,
        covered_at c 3 rfl (condOk_oneOf rfl) fun h => (given_oneOf c s _ _ _).2 (given_mono (fun t h => (hmem t).2 h) h)⟩
    rcases (particles_options_iff c one s raw hg hm options).1 ho with ⟨rfl, rfl⟩ | ⟨hne, texts, ht, rfl⟩
    · exact base
    · rw [List.forall_mem_append, List.forall_mem_append]
      refine ⟨⟨base, ?_⟩, ?_⟩
      · intro o ho
        obtain ⟨i, hi, rfl⟩ := List.mem_map.1 ho
        refine covered_list c hs _ _ _ ?_
        have := ht.1 i (by simpa using hi)
        rw [numKey, this]
        simpa using hi
      · split
        · rename_i hf
          simp only [List.forall_mem_cons, List.not_mem_nil, IsEmpty.forall_iff, implies_true, and_true]
          exact covered_at c 4 rfl (condOk_none rfl) fun h => (given_floats c s _).2 (h ⟨_, hg, hf⟩)
        · simp

theorem states_blame {s : Section} (hs : PlainSection s) {e : PyErr}
    (h : (stateActionOptions s >>= fun options => parseSection c s options) = .error e) :
    Blames (statesRules c) s e := by
  rcases bind_error h with h | ⟨options, ho, h⟩
  · unfold stateActionOptions at h
    rcases bind_error h with h | ⟨_, _, h⟩
    · unfold numberedStateOptions at h
      rcases bind_error h with h | ⟨mins, hmin, h⟩
      · exact blames_quiet (numberedSection_plain hs _ _ _ h ▸ rfl)
      rcases bind_error h with h | ⟨maxs, hmax, h⟩
      · exact blames_quiet (numberedSection_plain hs _ _ _ h ▸ rfl)
      have h1 := (numbered_section s _ _ _).1 hmin
      have h2 := (numbered_section s _ _ _).1 hmax
      split at h
      · rename_i hne
        cases h
        exact fun _ => ⟨_, rfl, _, .tail _ (.tail _ (.head _)), fun hr => hne (hr mins maxs h1 h2)⟩
      · rename_i heq
        dsimp only at h
        split at h
        · rename_i he
          cases h
          refine fun _ => ⟨_, rfl, _, .tail _ (.tail _ (.tail _ (.head _))), fun hr => hr ?_⟩
          have hl : mins = [] := by
            have := congrArg List.length he
            simp [List.length_flatMap] at this
            exact this
          subst hl
          exact h1.2
        · cases h
    · cases h
  · refine section_blame c s hs _ _ ?_ e h
    unfold stateActionOptions at ho
    obtain ⟨o', h0, h3⟩ := bind_ok ho
    cases h3
    obtain ⟨mins, maxs, b1, b2, b3, b4, rfl⟩ := (state_options_iff s _).1 h0
    rw [List.forall_mem_append]
    constructor
    · simp only [List.forall_mem_cons, List.not_mem_nil, IsEmpty.forall_iff, implies_true, and_true]
      exact ⟨covered_at c 0 rfl (condOk_positive rfl) (perhaps_int_pos c s _ _).2, covered_str c hs _ _,
        covered_at c 1 rfl (condOk_positive rfl) (perhaps_int_pos c s _ _).2, covered_str c hs _ _⟩
    · intro o ho
      obtain ⟨i, hi, ho⟩ := List.mem_flatMap.1 ho
      have hi' := List.mem_range.1 hi
      simp only [List.mem_cons, List.not_mem_nil, or_false] at ho
      rcases ho with rfl | rfl
      · refine covered_list c hs _ _ _ ?_
        have := b1.1 i (by simpa using hi')
        rw [numKey, this]
        simpa using hi'
      · refine covered_list c hs _ _ _ ?_
        have := b2.1 i (by simpa [← b3] using hi')
        rw [numKey, this]
        simpa [← b3] using hi'

end

end Bdld
