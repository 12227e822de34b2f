import Verif.Props.Init
import Verif.Props.InputSections

/-
The initial distribution for parsed input (C61, C62): connection of `parse_particles` and
`init_particles`.
-/

namespace Bdld

set_option linter.unusedSectionVars false

theorem Dict.set_new {V : Type} (d : Dict V) (k : String) (v : V) (h : ∀ p ∈ d, p.1 ≠ k) :
    d.set k v = d ++ [(k, v)] := by
  induction d with
  | nil => rfl
  | cons p d ih =>
    obtain ⟨a, w⟩ := p
    rw [Dict.set, if_neg (h (a, w) List.mem_cons_self), ih (fun q hq => h q (List.mem_cons_of_mem _ hq))]
    rfl

/-- A parsed dictionary contains the options in their order. -/
theorem parseLoop_list {F : Type} (c : Conv F) (s : Section) (options : List (InputOption F))
    (d0 d : Dict (OptVal F)) (h : parseLoop c s options d0 = .ok d) (hn : (options.map InputOption.key).Nodup)
    (hd : ∀ p ∈ d0, ∀ o ∈ options, p.1 ≠ o.key) :
    ∃ vals : List (OptVal F), vals.length = options.length ∧ d = d0 ++ (options.map InputOption.key).zip vals := by
  induction options generalizing d0 with
  | nil => cases h; exact ⟨[], rfl, by simp⟩
  | cons o os ih =>
    simp only [parseLoop] at h
    cases ho : o.parse c s with
    | error e => rw [ho] at h; cases h
    | ok v =>
      rw [ho] at h
      simp only at h
      rw [Dict.set_new d0 o.key v (fun p hp => hd p hp o List.mem_cons_self)] at h
      rw [List.map_cons, List.nodup_cons] at hn
      obtain ⟨vals, h1, h2⟩ := ih _ h hn.2 (by
        intro p hp o' ho'
        rw [List.mem_append, List.mem_singleton] at hp
        rcases hp with hp | rfl
        · exact hd p hp o' (List.mem_cons_of_mem _ ho')
        · intro e
          exact hn.1 (List.mem_map.2 ⟨o', ho', e.symm⟩))
      exact ⟨v :: vals, by simp [h1], by simp [h2]⟩

section
variable {F : Type} [Zero F] [LT F] [LE F] [DecidableLT F] [DecidableLE F]

/-- The options of `[particles]` other than positions and fractions. -/
def particlesBase (one : F) : List (InputOption F) :=
  [opt "number" .int true (some positive),
   opt "mass" .float false (some positive) (.base (.float one)), opt "seed" .int false,
   opt "initial-distribution" .str true (some (oneOf initialDistributions))]

/-- The options of the positions. -/
def positionOptions (k : Nat) : List (InputOption F) :=
  (List.range k).map (fun i => optList (numKey "pos" "" (i + 1)) .float true)

/-- `parse_particles` reduces to `parse_section` with the base options, `k` positions and possibly the
fractions. -/
theorem particles_options (one : F) (c : Conv F) (s : Section) (d : Dict (OptVal F))
    (h : parseParticles one c s = .ok d) : ∃ (k : Nat) (fr : List (InputOption F)),
      (fr = [optList "fractions" .float true] ∨ fr = []) ∧
      parseSection c s (particlesBase one ++ positionOptions k ++ fr) = .ok d ∧
      ((particlesBase one ++ positionOptions k ++ fr).map InputOption.key).Nodup := by
  have key : ∀ (k : Nat) (fr : List (InputOption F)), (fr = [optList "fractions" .float true] ∨ fr = []) →
      ((particlesBase one ++ positionOptions k ++ fr).map InputOption.key).Nodup := by
    intro k fr hfr
    have hfk : ∀ o ∈ fr, o = optList "fractions" .float true := by
      intro o ho
      rcases hfr with rfl | rfl
      · simpa using ho
      · cases ho
    rw [List.map_append, List.map_append, List.nodup_append, List.nodup_append]
    refine ⟨⟨by simp [particlesBase, opt], ?_, ?_⟩, ?_, ?_⟩
    · rw [positionOptions, List.map_map]
      refine List.Nodup.map ?_ List.nodup_range
      intro a b e
      have := numKey_inj "pos" "" _ _ e
      omega
    · intro a ha b hb
      rw [positionOptions, List.map_map] at hb
      obtain ⟨i, -, rfl⟩ := List.mem_map.mp hb
      intro e
      refine numKey_ne_prefix "pos" "" a (i + 1) ?_ e.symm
      simp only [particlesBase, opt, List.map_cons, List.map_nil, List.mem_cons, List.not_mem_nil, or_false] at ha
      rcases ha with rfl | rfl | rfl | rfl <;> decide
    · rcases hfr with rfl | rfl <;> simp
    · intro a ha b hb
      obtain ⟨o, ho, rfl⟩ := List.mem_map.mp hb
      rw [hfk o ho]
      rw [List.mem_append] at ha
      rcases ha with ha | ha
      · simp only [particlesBase, opt, List.map_cons, List.map_nil, List.mem_cons, List.not_mem_nil, or_false] at ha
        rcases ha with rfl | rfl | rfl | rfl <;> simp [optList]
      · rw [positionOptions, List.map_map] at ha
        obtain ⟨i, -, rfl⟩ := List.mem_map.mp ha
        exact numKey_ne_prefix "pos" "" "fractions" (i + 1) (by decide)
  unfold parseParticles particlesOptions at h
  simp only at h
  cases hp : (opt "initial-distribution" .str true (some (oneOf initialDistributions)) :
    InputOption F).parse c s with
  | error e => rw [hp, error_bind, error_bind] at h; cases h
  | ok v =>
    rw [hp, ok_bind] at h
    split at h
    · cases hs : numberedSection s "pos" "" with
      | error e => rw [hs, error_bind, error_bind, error_bind] at h; cases h
      | ok vals =>
        rw [hs, ok_bind, pure_eq_ok, ok_bind, pure_eq_ok, ok_bind] at h
        exact ⟨vals.length, [], .inr rfl, h, key _ _ (.inr rfl)⟩
    · cases hs : numberedSection s "pos" "" with
      | error e => rw [hs, error_bind, error_bind, error_bind] at h; cases h
      | ok vals =>
        rw [hs, ok_bind, pure_eq_ok, ok_bind, pure_eq_ok, ok_bind] at h
        exact ⟨vals.length, [optList "fractions" .float true], .inl rfl, h, key _ _ (.inl rfl)⟩
    · rename_i hne1 hne2
      rw [pure_eq_ok, ok_bind, pure_eq_ok, ok_bind] at h
      exact ⟨0, [], .inr rfl, by simpa [particlesBase, positionOptions] using h, key _ _ (.inr rfl)⟩

theorem contains_pos (i : Nat) : pyContains "pos" (numKey "pos" "" i) = true := by
  unfold pyContains
  rw [decide_eq_true_iff, numKey_toList]
  exact ⟨[], (Nat.repr i).toList ++ "".toList, by simp⟩

theorem filter_zip {α β : Type} (f : α → Bool) (l1 l2 : List α) (v1 v2 : List β)
    (h1 : ∀ a ∈ l1, f a = false) (h2 : ∀ a ∈ l2, f a = true) (hl1 : v1.length = l1.length) :
    (((l1 ++ l2).zip (v1 ++ v2)).filter (fun kv => f kv.1)) = l2.zip v2 := by
  rw [List.zip_append hl1.symm, List.filter_append]
  have e1 : (l1.zip v1).filter (fun kv => f kv.1) = [] := by
    rw [List.filter_eq_nil_iff]
    intro kv hkv
    rw [h1 _ (List.of_mem_zip hkv).1]
    simp
  have e2 : (l2.zip v2).filter (fun kv => f kv.1) = l2.zip v2 := by
    rw [List.filter_eq_self]
    intro kv hkv
    exact h2 _ (List.of_mem_zip hkv).1
  rw [e1, e2, List.nil_append]

theorem lookup_append_right {V : Type} (l1 l2 : Dict V) (k : String) (h : ∀ p ∈ l1, p.1 ≠ k) :
    Dict.get? (l1 ++ l2) k = Dict.get? l2 k := by
  induction l1 with
  | nil => rfl
  | cons p l ih =>
    obtain ⟨a, v⟩ := p
    have hne : (k == a) = false := by
      rw [beq_eq_false_iff_ne]
      exact fun e => h (a, v) List.mem_cons_self e.symm
    have := ih (fun q hq => h q (List.mem_cons_of_mem _ hq))
    unfold Dict.get? at this ⊢
    rw [List.cons_append, List.lookup_cons, hne]
    exact this

theorem lookup_zip {V : Type} (ks : List String) (vs : List V) (hn : ks.Nodup) (hl : vs.length = ks.length)
    (i : Nat) (hi : i < ks.length) : Dict.get? (ks.zip vs) ks[i] = vs[i]? := by
  induction ks generalizing vs i with
  | nil => simp at hi
  | cons k ks ih =>
    cases vs with
    | nil => simp at hl
    | cons v vs =>
      rw [List.nodup_cons] at hn
      cases i with
      | zero => simp [Dict.get?]
      | succ i =>
        have hi' : i < ks.length := by simpa using hi
        have hne : (ks[i] == k) = false := by
          rw [beq_eq_false_iff_ne]
          intro e
          exact hn.1 (e ▸ List.getElem_mem hi')
        have := ih vs hn.2 (by simpa using hl) i hi'
        unfold Dict.get? at this ⊢
        rw [List.zip_cons_cons, List.getElem_cons_succ, List.lookup_cons, hne, List.getElem?_cons_succ]
        exact this

/-- **C62.** In the parsed options the entries whose key contains "pos" are exactly the numbered positions,
in their order. -/
theorem posChoices_numbered (one : F) (c : Conv F) (s : Section) (d : Dict (OptVal F))
    (h : parseParticles one c s = .ok d) (vals : List (OptVal F)) (hv : Spec.Numbered d.get? "pos" "" vals) :
    posChoices d = vals.mapM OptVal.asFloats := by
  obtain ⟨k, fr, hfr, hp, hn⟩ := particles_options one c s d h
  obtain ⟨w, hw, rfl⟩ := parseLoop_list c s _ [] d hp hn (by simp)
  rw [List.nil_append] at hv ⊢
  -- split the values into those of the base options, the positions and the fractions
  have hlen : w.length = 4 + k + fr.length := by
    rw [hw]; simp [particlesBase, positionOptions]; omega
  obtain ⟨w1, w2, w3, rfl, h1, h2, h3⟩ : ∃ w1 w2 w3 : List (OptVal F), w = w1 ++ w2 ++ w3 ∧
      w1.length = 4 ∧ w2.length = k ∧ w3.length = fr.length := by
    refine ⟨w.take 4, (w.drop 4).take k, (w.drop 4).drop k, ?_, ?_, ?_, ?_⟩
    · rw [List.append_assoc, List.take_append_drop, List.take_append_drop]
    · rw [List.length_take]; omega
    · rw [List.length_take, List.length_drop]; omega
    · rw [List.length_drop, List.length_drop]; omega
  have hb : ∀ a ∈ (particlesBase one).map InputOption.key, pyContains "pos" a = false := by
    intro a ha
    simp only [particlesBase, opt, List.map_cons, List.map_nil, List.mem_cons, List.not_mem_nil, or_false] at ha
    rcases ha with rfl | rfl | rfl | rfl <;> decide
  have hf : ∀ a ∈ fr.map InputOption.key, pyContains "pos" a = false := by
    intro a ha
    rcases hfr with rfl | rfl
    · simp only [optList, List.map_cons, List.map_nil, List.mem_cons, List.not_mem_nil, or_false] at ha
      subst ha
      decide
    · simp at ha
  have hq : ∀ a ∈ (positionOptions k : List (InputOption F)).map InputOption.key, pyContains "pos" a = true := by
    intro a ha
    rw [positionOptions, List.map_map] at ha
    obtain ⟨i, -, rfl⟩ := List.mem_map.mp ha
    exact contains_pos (i + 1)
  have hk : (positionOptions k : List (InputOption F)).map InputOption.key =
      (List.range k).map (fun i => numKey "pos" "" (i + 1)) := by
    rw [positionOptions, List.map_map]; rfl
  have hl1 : w1.length = ((particlesBase one).map InputOption.key).length := by simp [particlesBase, h1]
  have hl2 : w2.length = ((positionOptions k : List (InputOption F)).map InputOption.key).length := by
    rw [hk]; simp [h2]
  have hl12 : (w1 ++ w2).length = (((particlesBase one ++ positionOptions k : List (InputOption F))).map InputOption.key).length := by
    rw [List.map_append, List.length_append, List.length_append, hl1, hl2]
  -- the filtered dictionary
  have hfilter : ((((particlesBase one ++ positionOptions k ++ fr).map InputOption.key).zip (w1 ++ w2 ++ w3)).filter
      (fun kv => pyContains "pos" kv.1)) =
      ((positionOptions k : List (InputOption F)).map InputOption.key).zip w2 := by
    rw [List.map_append, List.zip_append hl12.symm, List.filter_append, List.map_append,
      filter_zip (pyContains "pos") _ _ _ _ hb hq hl1]
    have : ((fr.map InputOption.key).zip w3).filter (fun kv => pyContains "pos" kv.1) = [] := by
      rw [List.filter_eq_nil_iff]
      intro kv hkv
      rw [hf _ (List.of_mem_zip hkv).1]
      simp
    rw [this, List.append_nil]
  -- the numbered values
  have hvals : vals = w2 := by
    refine numbered_unique _ "pos" "" vals w2 hv ⟨fun i hi => ?_, ?_⟩
    · have hi' : i < ((positionOptions k : List (InputOption F)).map InputOption.key).length := by omega
      have hki : ((positionOptions k : List (InputOption F)).map InputOption.key)[i] = numKey "pos" "" (i + 1) := by
        simp only [hk, List.getElem_map, List.getElem_range]
      show Dict.get? _ (numKey "pos" "" (i + 1)) = _
      have hsplit : ((particlesBase one ++ positionOptions k ++ fr).map InputOption.key).zip (w1 ++ w2 ++ w3) =
          ((particlesBase one).map InputOption.key).zip w1 ++ (((positionOptions k ++ fr).map InputOption.key).zip (w2 ++ w3)) := by
        rw [List.append_assoc, List.map_append, List.append_assoc, List.zip_append hl1.symm]
      rw [hsplit, lookup_append_right]
      · have hn2 : ((positionOptions k ++ fr).map InputOption.key).Nodup := by
          rw [List.append_assoc, List.map_append, List.nodup_append] at hn
          exact hn.2.1
        have hi2 : i < ((positionOptions k ++ fr).map InputOption.key).length := by
          rw [List.map_append, List.length_append]; omega
        have he : ((positionOptions k ++ fr).map InputOption.key)[i] = numKey "pos" "" (i + 1) := by
          rw [← hki]
          simp only [List.map_append]
          rw [List.getElem_append_left hi']
        rw [← he, lookup_zip _ _ hn2 (by
          rw [List.map_append, List.length_append, List.length_append, hl2, h3, List.length_map (as := fr)]) i hi2,
          List.getElem?_append_left hi]
      · intro p hp e
        have := hb _ (List.of_mem_zip hp).1
        rw [e, contains_pos] at this
        cases this
    · show Dict.get? _ (numKey "pos" "" (w2.length + 1)) = none
      rw [Dict.get?_none]
      rintro ⟨v, hv⟩
      have hmem := (List.of_mem_zip hv).1
      rw [List.map_append, List.map_append, List.mem_append, List.mem_append] at hmem
      rcases hmem with (hm | hm) | hm
      · have := hb _ hm; rw [contains_pos] at this; cases this
      · rw [hk] at hm
        obtain ⟨j, hj, e⟩ := List.mem_map.1 hm
        rw [List.mem_range] at hj
        have := numKey_inj "pos" "" _ _ e
        omega
      · have := hf _ hm; rw [contains_pos] at this; cases this
  subst hvals
  unfold posChoices
  rw [hfilter]
  clear hfilter hw hlen hv hn hp h hl12 hb hf hq
  have : ∀ (ks : List String) (vs : List (OptVal F)), vs.length = ks.length →
      (ks.zip vs).mapM (fun kv => kv.2.asFloats) = vs.mapM OptVal.asFloats := by
    intro ks
    induction ks with
    | nil => intro vs hl; cases vs with
      | nil => rfl
      | cons v vs => simp at hl
    | cons k ks ih =>
      intro vs hl
      cases vs with
      | nil => rfl
      | cons v vs =>
        rw [List.zip_cons_cons, List.mapM_cons, List.mapM_cons, ih vs (by simpa using hl)]
  exact this _ _ hl2

end

/-! ### The function applied to parsed options -/

section
variable {F : Type}

theorem asFloats_map (l : List F) : (OptVal.list (l.map .float)).asFloats = .ok l := by
  unfold OptVal.asFloats
  simp only
  induction l with
  | nil => rfl
  | cons a l ih => rw [List.map_cons, List.mapM_cons, ih]; rfl

theorem getItem_some {V : Type} (d : Dict V) (k : String) (v : V) (h : d.get? k = some v) :
    d.getItem k = .ok v := by
  unfold Dict.getItem
  rw [h]

theorem mapM_asFloats (vals : List (OptVal F)) (choices : List (List F))
    (h : vals = choices.map (fun p => .list (p.map .float))) : vals.mapM OptVal.asFloats = .ok choices := by
  subst h
  induction choices with
  | nil => rfl
  | cons p choices ih => rw [List.map_cons, List.mapM_cons, asFloats_map, ih]; rfl

theorem asOptInt_seed [Zero F] [LT F] [LE F] (d : Dict (OptVal F)) (hv : Spec.ValidParticles d) :
    ∃ v seed, d.getItem "seed" = .ok v ∧ v.asOptInt = .ok seed := by
  rcases hv.seed with h | ⟨i, h, -⟩
  · exact ⟨_, _, getItem_some _ _ _ h, rfl⟩
  · exact ⟨_, _, getItem_some _ _ _ h, rfl⟩

/-- `default_rng` accepts the seed of the options. -/
def Spec.SeedAccepted {R : Type} (seeded : Option Int → Except PyErr R) (opts : Dict (OptVal F)) : Prop :=
  ∀ v seed, opts.getItem "seed" = .ok v → v.asOptInt = .ok seed → ∃ r, seeded seed = .ok r

section
variable [Zero F] [LT F] [LE F] [Add F] [Mul F] [Div F] [IntCast F] [DecidableEq F]
  {d : Nat} {R S : Type} (trunc : F → Int) (ops : InitRng R F) (ho : ops.Lawful)
  (seeded : Option Int → Except PyErr R)
  (c : LdCfg F d)
include ho

/-- **C62.** random-global with options that passed the input parser. -/
theorem init_random_global (opts : Dict (OptVal F)) (hv : Spec.ValidParticles opts)
    (hdist : opts.get? "initial-distribution" = some (.base (.str "random-global")))
    (hseed : Spec.SeedAccepted seeded opts)
    (hd : c.pot.ranges.length = d) (hr : ∀ x ∈ c.pot.ranges, x.1 ≤ x.2) (s : LdState F d S) :
    ∃ (n : Int) (mass : F) (new : List (LdParticle F d)),
      opts.get? "number" = some (.base (.int n)) ∧ opts.get? "mass" = some (.base (.float mass)) ∧
      initParticles trunc ops seeded c opts s = .ok { s with particles := s.particles ++ new } ∧
      (new.length : Int) = n ∧ ∀ p ∈ new, Spec.Fresh c mass p ∧ Spec.Inside c.pot.ranges p.pos := by
  obtain ⟨n, hn, hn0⟩ := hv.number
  obtain ⟨mass, hm, -⟩ := hv.mass
  obtain ⟨sv, seed, hs1, hs2⟩ := asOptInt_seed opts hv
  obtain ⟨r, hr'⟩ := hseed sv seed hs1 hs2
  obtain ⟨new, h1, h2, h3⟩ := random_global ops ho c mass hd hr n.toNat r s
  refine ⟨n, mass, new, hn, hm, ?_, by omega, h3⟩
  unfold initParticles
  rw [getItem_some _ _ _ hm, getItem_some _ _ _ hn, getItem_some _ _ _ hdist, hs1]
  simp only [ok_bind, OptVal.asFloat, OptVal.asInt, hs2, hr']
  exact h1

/-- **C62.** random-pos with options that passed the input parser: the particles are at the positions given
as `pos1`, `pos2`, … -/
theorem init_random_pos [DecidableLT F] [DecidableLE F] (one : F) (hone : 0 < one) (conv : Conv F)
    (sec : Section) (opts : Dict (OptVal F)) (hp : parseParticles one conv sec = .ok opts)
    (hdist : opts.get? "initial-distribution" = some (.base (.str "random-pos")))
    (choices : List (List F))
    (hc : Spec.Numbered opts.get? "pos" "" (choices.map (fun p => .list (p.map .float))))
    (hseed : Spec.SeedAccepted seeded opts)
    (hne : choices ≠ []) (hl : ∀ p ∈ choices, p.length = d) (s : LdState F d S) :
    ∃ (n : Int) (mass : F) (new : List (LdParticle F d)),
      opts.get? "number" = some (.base (.int n)) ∧ opts.get? "mass" = some (.base (.float mass)) ∧
      initParticles trunc ops seeded c opts s = .ok { s with particles := s.particles ++ new } ∧
      (new.length : Int) = n ∧ ∀ p ∈ new, Spec.Fresh c mass p ∧ List.ofFn p.pos ∈ choices := by
  have hv := particles_valid one hone sec opts hp
  obtain ⟨n, hn, hn0⟩ := hv.number
  obtain ⟨mass, hm, -⟩ := hv.mass
  obtain ⟨sv, seed, hs1, hs2⟩ := asOptInt_seed opts hv
  obtain ⟨r, hr'⟩ := hseed sv seed hs1 hs2
  obtain ⟨new, h1, h2, h3⟩ := random_pos ops ho c mass choices hne hl n.toNat r s
  refine ⟨n, mass, new, hn, hm, ?_, by omega, h3⟩
  unfold initParticles
  rw [getItem_some _ _ _ hm, getItem_some _ _ _ hn, getItem_some _ _ _ hdist, hs1]
  simp only [ok_bind, OptVal.asFloat, OptVal.asInt, hs2, hr',
    posChoices_numbered one conv sec opts hp _ hc, mapM_asFloats _ choices rfl]
  exact h1

end

/-- **C61.** fractions-pos with options that passed the input parser. -/
theorem init_fractions_partial [Field F] [LinearOrder F] [IsStrictOrderedRing F] [FloorRing F] {d : Nat}
    {R S : Type} (ops : InitRng R F) (seeded : Option Int → Except PyErr R) (c : LdCfg F d)
    (opts : Dict (OptVal F)) (hv : Spec.ValidParticles opts)
    (hdist : opts.get? "initial-distribution" = some (.base (.str "fractions-pos")))
    (fractions : List F) (hf : opts.get? "fractions" = some (.list (fractions.map .float)))
    (choices : List (List F))
    (hc : Spec.Numbered opts.get? "pos" "" (choices.map (fun p => .list (p.map .float))))
    (h0 : ∀ x ∈ fractions, 0 ≤ x) (hs : 0 < fractions.sum) (hl : choices.length = fractions.length)
    (hd : ∀ p ∈ choices, p.length = d) (s : LdState F d S) :
    ∃ (n : Nat) (mass : F), opts.get? "number" = some (.base (.int n)) ∧
      opts.get? "mass" = some (.base (.float mass)) ∧
      initParticles pyTrunc ops seeded c opts s =
        .ok { s with particles := s.particles ++ Spec.placed c mass (choices.zip (Spec.shares fractions n)) } ∧
      (Spec.placed c mass (choices.zip (Spec.shares fractions n))).length = n := by
  obtain ⟨n, hn, hn0⟩ := hv.number
  obtain ⟨mass, hm, -⟩ := hv.mass
  obtain ⟨k, rfl⟩ := Int.eq_ofNat_of_zero_le hn0.le
  obtain ⟨h1, h2⟩ := fractions_partial c mass fractions choices k s h0 hs hl hd
  refine ⟨k, mass, hn, hm, ?_, h2⟩
  obtain ⟨vals, hnd, hnum⟩ := numbered_dict opts "pos" ""
  have hvals := numbered_unique _ "pos" "" vals _ hnum hc
  unfold initParticles
  rw [getItem_some _ _ _ hm, getItem_some _ _ _ hn, getItem_some _ _ _ hdist, getItem_some _ _ _ hf, hnd]
  simp only [ok_bind, OptVal.asFloat, OptVal.asInt, asFloats_map, hvals, mapM_asFloats _ choices rfl]
  exact h1

/-- C61: different numbers of positions and fractions in the input end with `ValueError`. -/
theorem init_fractions_mismatch [Field F] [LinearOrder F] [IsStrictOrderedRing F] {d : Nat}
    {R S : Type} (trunc : F → Int) (ops : InitRng R F) (seeded : Option Int → Except PyErr R) (c : LdCfg F d)
    (opts : Dict (OptVal F)) (hv : Spec.ValidParticles opts)
    (hdist : opts.get? "initial-distribution" = some (.base (.str "fractions-pos")))
    (fractions : List F) (hf : opts.get? "fractions" = some (.list (fractions.map .float)))
    (choices : List (List F))
    (hc : Spec.Numbered opts.get? "pos" "" (choices.map (fun p => .list (p.map .float))))
    (hne : fractions ≠ []) (hl : choices.length ≠ fractions.length) (s : LdState F d S) :
    initParticles trunc ops seeded c opts s = .error .valueError := by
  obtain ⟨n, hn, hn0⟩ := hv.number
  obtain ⟨mass, hm, -⟩ := hv.mass
  obtain ⟨vals, hnd, hnum⟩ := numbered_dict opts "pos" ""
  have hvals := numbered_unique _ "pos" "" vals _ hnum hc
  unfold initParticles
  rw [getItem_some _ _ _ hm, getItem_some _ _ _ hn, getItem_some _ _ _ hdist, getItem_some _ _ _ hf, hnd]
  simp only [ok_bind, OptVal.asFloat, OptVal.asInt, asFloats_map, hvals, mapM_asFloats _ choices rfl]
  exact fractions_mismatch trunc c mass fractions choices n s hne hl

end

/-- A generator with integer numbers for the examples: always the middle, always the last row. -/
def exInitRng : InitRng Unit Int where
  uniform := fun lo hi _ => ((lo + hi) / 2, ())
  choice := fun n _ => (n - 1, ())

example : exInitRng.Lawful :=
  ⟨fun lo hi _ h => by simp only [exInitRng]; omega, fun n _ h => by simp only [exInitRng]; omega⟩

/-- Example of parsed options for random-pos. -/
example : ((parseParticles 1 exConv ⟨"particles", [("number", .ok "2"), ("pos1", .ok "1"), ("pos2", .ok "2"),
    ("initial-distribution", .ok "random-pos")]⟩).toOption.map (fun o =>
      ((initParticles id exInitRng (fun _ => .ok ()) exLdCfg o (⟨[], ()⟩ : LdState Int 1 Unit)).toOption.map
        (fun s => s.particles.map (fun p => p.pos 0))))) = some (some [2, 2]) := by decide

end Bdld
