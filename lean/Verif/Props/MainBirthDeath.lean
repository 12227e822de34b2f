import Verif.Spec.Run
import Verif.Props.BirthDeathExact
import Verif.Props.Rates
import Verif.Props.Variant
import Verif.Props.MainPath

/-
C92, C93: birth-death of a finished run, in terms of the options.
-/

set_option linter.unusedSectionVars false

namespace Bdld

open Spec

variable {R : Type} {d : Nat}

/-! ### Set-up -/

theorem bandwidth_inv (o : Dict (OptVal ℝ)) (bw : List ℝ) (h : bdBandwidth d o = .ok bw) :
    bw = (List.range d).map (bandwidthOf o) ∧
    ((∃ x, FloatOpt o "kernel-bandwidth" x) ∨ FloatsOpt o "kernel-bandwidth" bw) := by
  unfold bdBandwidth at h
  obtain ⟨l, hl, h⟩ := bind_ok h
  split at h
  · cases h
  · rename_i hlen
    cases h
    simp only [ne_eq, not_not] at hlen
    split at hl
    · rename_i hd
      obtain ⟨v, g, hl⟩ := bind_ok hl
      obtain ⟨x, f, hl⟩ := bind_ok hl
      cases hl
      subst hd
      have : o.get? "kernel-bandwidth" = some (.base (.float x)) := floatOpt g f
      exact ⟨by simp [bandwidthOf, this, List.range, List.range.loop], Or.inl ⟨x, this⟩⟩
    · obtain ⟨v, g, hl⟩ := bind_ok hl
      have hfl : o.get? "kernel-bandwidth" = some (.list (bw.map .float)) := floatsOpt g hl
      refine ⟨?_, Or.inr hfl⟩
      apply List.ext_getElem
      · simp [hlen]
      · intro i h1 h2
        simp [bandwidthOf, hfl, h1]

theorem bdSeed_inv (w : World R) (o : Dict (OptVal ℝ)) (v : OptVal ℝ) (seed : Option Int) (r : R)
    (h1 : o.getItem "seed" = .ok v) (h2 : v.asOptInt = .ok seed) (h3 : w.defaultRng .birthDeath (bdSeed seed) = .ok r) :
    r = bdGenerator w o ∧ ∀ i, IntOpt o "seed" i → -1000 ≤ i := by
  unfold bdGenerator IntOpt
  rw [getItem_inv h1]
  unfold OptVal.asOptInt at h2
  split at h2
  · cases h2; cases h3; exact ⟨rfl, fun i hi => by cases hi⟩
  · cases h2
    rename_i s
    simp only [bdSeed] at h3
    by_cases hs : s = 0
    · rw [if_pos hs] at h3
      cases h3
      refine ⟨by simp [hs], fun i hi => ?_⟩
      cases hi
      omega
    · rw [if_neg hs] at h3
      unfold World.defaultRng at h3
      simp only at h3
      split at h3
      · cases h3
      · cases h3
        refine ⟨by simp [hs], fun i hi => ?_⟩
        cases hi
        omega
  · cases h2

/-- The correction of the rates at a position: interpolation of the correction of the chosen variant, which is
calculated from the Boltzmann density and the kernel (C75, C76, C77). -/
def IsCorrection (w : World R) (c : LdCfg ℝ d) (o : Dict (OptVal ℝ)) (corr : (Fin d → ℝ) → ℝ) : Prop :=
  ∃ grid, bdApproxGrid w c ((List.range d).map (bandwidthOf o)) (variantOf o) = .ok grid ∧
    corr = fun p => approxAt w grid (List.ofFn p)

/-- The action set up from the options. -/
structure BdFacts (w : World R) (c : LdCfg ℝ d) (o : Dict (OptVal ℝ)) (b : BdAct d) (s : BdRunState R)
    (corr : (Fin d → ℝ) → ℝ) : Prop where
  correction : IsCorrection w c o corr
  cfg : b.cfg = realBdCfg ⟨fun k => bandwidthOf o k, c.kt, variantOf o, corr⟩ (c.dt * natOption o "stride" 0)
    (factorOf o) (flagOption o "recalculate-probabilities") (fun p => ⟨p.pos, p.energy⟩)
  stride : b.stride = natOption o "stride" 0
  stridePos : 0 < b.stride
  statsStride : b.statsStride = (match o.get? "stats-stride" with
    | some (.base (.int i)) => some i.toNat
    | _ => none)
  statsPos : ∀ k, b.statsStride = some k → 0 < k
  rng : s.rng = bdGenerator w o
  stats : s.stats = ⟨0, 0, 0, 0⟩
  log : s.log = []
  bandwidth : ∀ k, k < d → 0 < bandwidthOf o k
  factor : 0 < factorOf o
  seed : ∀ i, IntOpt o "seed" i → -1000 ≤ i

theorem setupBirthDeath_facts (w : World R) (oneDim : Bool) (o : Dict (OptVal ℝ)) (c : LdCfg ℝ d)
    (b : BdAct d) (s : BdRunState R) (hv : ValidBirthDeath oneDim o)
    (h : setupBirthDeath w o c = .ok (b, s)) : ∃ corr, BdFacts w c o b s corr := by
  obtain ⟨bw, hbw, h⟩ := bind_ok h
  obtain ⟨v, hvar, h⟩ := bind_ok h
  have hk : KnownLabels o := by
    by_contra hk
    rw [variant_unknown oneDim o hv hk] at hvar
    cases hvar
  rw [variant_partial oneDim o hv hk] at hvar
  obtain rfl : variantOf o = v := Except.ok.inj hvar
  obtain ⟨i, hi, hpos⟩ := hv.stride
  obtain ⟨rc, hrc⟩ := hv.recalc
  obtain ⟨rfl, hbwo⟩ := bandwidth_inv o bw hbw
  simp only [Dict.getItem, hi, hrc, ok_bind, OptVal.asOptStride, OptVal.asFlag] at h
  obtain ⟨f, hf, h⟩ := bind_ok h
  obtain ⟨f', hf', h⟩ := bind_ok h
  obtain ⟨ss, hss, h⟩ := bind_ok h
  obtain ⟨ss', hss', h⟩ := bind_ok h
  obtain ⟨sd, hsd, h⟩ := bind_ok h
  obtain ⟨sd', hsd', h⟩ := bind_ok h
  obtain ⟨rng, hrng, h⟩ := bind_ok h
  obtain ⟨grid, hgrid, h⟩ := bind_ok h
  cases h
  have hfac : rateFactor f' = factorOf o ∧ 0 < factorOf o := by
    rcases hv.factor with h0 | ⟨x, hx, hx0⟩
    · rw [h0] at hf
      cases hf
      cases hf'
      simp [factorOf, h0, rateFactor]
    · rw [hx] at hf
      cases hf
      cases hf'
      simp [factorOf, hx, rateFactor, ne_of_gt hx0, hx0]
  have hstride : natOption o "stride" 0 = i.toNat := by simp [natOption, hi]
  have hflag : flagOption o "recalculate-probabilities" = rc := by simp [flagOption, hrc]
  obtain ⟨hs1, hs2⟩ := bdSeed_inv w o sd sd' rng hsd hsd' hrng
  refine ⟨fun p => approxAt w grid (List.ofFn p), ⟨grid, hgrid, rfl⟩, ?_, ?_, ?_, ?_, ?_, hs1, rfl, rfl, ?_, hfac.2, hs2⟩
  · simp only [hfac.1, hstride, hflag, Option.getD_some]
    congr 2
    funext k
    simp
  · rw [hstride]; rfl
  · simp only [Option.getD_some]; omega
  · rcases hv.statsStride with h0 | ⟨j, hj, _⟩
    · rw [h0] at hss
      cases hss
      cases hss'
      simp [h0]
    · rw [hj] at hss
      cases hss
      cases hss'
      simp [hj]
  · rcases hv.statsStride with h0 | ⟨j, hj, hj0⟩
    · rw [h0] at hss
      cases hss
      cases hss'
      intro k hk
      cases hk
    · rw [hj] at hss
      cases hss
      cases hss'
      intro k hk
      cases hk
      omega
  · intro k hk
    have hb := hv.bandwidth
    cases oneDim with
    | true =>
      obtain ⟨x, hx, hx0⟩ := hb
      simp only [bandwidthOf, hx]
      exact hx0
    | false =>
      obtain ⟨l, hl, hl0⟩ := hb
      rcases hbwo with ⟨x, hx⟩ | hx
      · rw [FloatOpt, hl] at hx
        cases hx
      · rw [FloatsOpt, hl] at hx
        simp only [Option.some.injEq, OptVal.list.injEq] at hx
        have hx := List.map_injective_iff.2 (fun x y (h : BaseVal.float x = BaseVal.float y) => by cases h; rfl) hx
        exact hl0.2 _ (by rw [hx]; exact List.mem_map.2 ⟨k, List.mem_range.2 hk, rfl⟩)

/-! ### Rates -/

/-- Position and momentum. -/
def phaseOf (p : LdParticle ℝ d) : Phase d := (p.pos, p.mom)

theorem rate_cast (ld o : Dict (OptVal ℝ)) (ph : Physics d) (xs : List (Phase d)) (n : Nat) (h : xs.length = n)
    (pos : Fin n → Fin d → ℝ) (hp : ∀ j : Fin n, pos j = (xs.get (j.cast h.symm)).1) (i : Fin n) :
    rateOf ld o ph xs i = centred (fun j => Real.log (kde (fun k => bandwidthOf o k) pos (pos j)) +
      if variantOf o = .mult then ph.correction (pos j) else ph.energy (pos j) / ktOf ld) i +
      if variantOf o = .add then ph.correction (pos i) else 0 := by
  subst h
  obtain rfl : pos = fun j => (xs.get j).1 := funext hp
  rw [rateOf, dif_pos i.isLt]

/-- The rates of the model are those of the specification, if the stored energies are right. -/
theorem rates_of (c : LdCfg ℝ d) (ld o : Dict (OptVal ℝ)) (ph : Physics d) (hkt : c.kt = ktOf ld)
    (hbw : ∀ k, k < d → 0 < bandwidthOf o k) (dt fac : ℝ) (rc : Bool)
    (ps : List (LdParticle ℝ d)) (he : ∀ p ∈ ps, p.energy = ph.energy p.pos) (i : Nat) :
    ((realBdCfg ⟨fun k => bandwidthOf o k, c.kt, variantOf o, ph.correction⟩ dt fac rc
      (fun p : LdParticle ℝ d => ⟨p.pos, p.energy⟩)).calcBetas ps)[i]? =
      if i < ps.length then some ((rateOf ld o ph (ps.map phaseOf) i : ℝ) : WithBot ℝ) else none := by
  simp only [realBdCfg]
  split
  · rename_i hi
    rw [List.getElem?_ofFn, dif_pos hi, rates_eq _ (fun k => hbw k k.isLt),
      rate_cast ld o ph _ ps.length (by simp) (fun j => (ps.get j).pos) (fun j => by simp [phaseOf]) ⟨i, hi⟩]
    have hen : ∀ j : Fin ps.length, (ps.get j).energy = ph.energy (ps.get j).pos := fun j => he _ (List.get_mem _ _)
    simp only [hen, hkt]
    rfl
  · rename_i hi
    rw [List.getElem?_eq_none (by simpa using hi)]

/-! ### One step -/

theorem copyWalker_map {P Q : Type} (v : P → Q) (ps : List P) (e : BdEvent) :
    (copyWalker ps e).map v = copyWalker (ps.map v) e := by
  unfold copyWalker
  rw [List.getElem?_map]
  cases h : ps[e.dup]? with
  | none => rfl
  | some p => simp

theorem copyWalker_mem {P : Type} (ps : List P) (e : BdEvent) (p : P) (h : p ∈ copyWalker ps e) : p ∈ ps := by
  unfold copyWalker at h
  split at h
  · rename_i q hq
    rcases List.mem_or_eq_of_mem_set h with h | rfl
    · exact h
    · exact List.mem_of_getElem? hq
  · exact h

theorem copyWalker_length {P : Type} (ps : List P) (e : BdEvent) : (copyWalker ps e).length = ps.length := by
  unfold copyWalker
  split <;> simp

theorem foldl_copyWalker_map {P Q : Type} (v : P → Q) : ∀ (es : List BdEvent) (ps : List P),
    (es.foldl copyWalker ps).map v = es.foldl copyWalker (ps.map v)
  | [], _ => rfl
  | e :: es, ps => by
    rw [List.foldl_cons, List.foldl_cons, foldl_copyWalker_map v es, copyWalker_map]

theorem recalcTurns_map {P Q : Type} (v : P → Q) (Inv : P → Prop) (n : Nat)
    (sel pos neg : List P → Nat → Bool) (sel' pos' neg' : List Q → Nat → Bool) (ints : Nat → Nat)
    (hs : ∀ ps, (∀ p ∈ ps, Inv p) → ps.length = n → ∀ i, i < n → sel ps i = sel' (ps.map v) i ∧
      pos ps i = pos' (ps.map v) i ∧ neg ps i = neg' (ps.map v) i) :
    ∀ (order : List Nat) (ps : List P) (done : List Turn), (∀ i ∈ order, i < n) → (∀ p ∈ ps, Inv p) →
      ps.length = n →
      recalcTurns sel' pos' neg' ints order (ps.map v) done =
        ((recalcTurns sel pos neg ints order ps done).1.map v, (recalcTurns sel pos neg ints order ps done).2)
  | [], ps, done, _, _, _ => rfl
  | i :: order, ps, done, ho, hp, hl => by
    obtain ⟨h1, h2, h3⟩ := hs ps hp hl i (ho i (by simp))
    have ho' : ∀ j ∈ order, j < n := fun j hj => ho j (by simp [hj])
    unfold recalcTurns
    rw [← h1, ← h2, ← h3]
    split
    · simp only
      rw [← copyWalker_map]
      exact recalcTurns_map v Inv n sel pos neg sel' pos' neg' ints hs order _ _ ho'
        (fun p hp' => hp p (copyWalker_mem _ _ _ hp')) (by rw [copyWalker_length, hl])
    · exact recalcTurns_map v Inv n sel pos neg sel' pos' neg' ints hs order _ _ ho' hp hl

/-- C92: one step of the birth-death action is the step of the specification, in terms of the options. -/
theorem birthDeath_step {w : World R} {c : LdCfg ℝ d} {o : Dict (OptVal ℝ)} {b : BdAct d} {z : BdRunState R}
    {corr : (Fin d → ℝ) → ℝ} (hf : BdFacts w c o b z corr) (ld : Dict (OptVal ℝ)) (hkt : c.kt = ktOf ld)
    (hdt : c.dt = floatOf ld "timestep") (ph : Physics d) (hcorr : ph.correction = corr)
    {ops : RngOps R ℝ} (hops : ops.Lawful) {s s' : BdState (LdParticle ℝ d) R} {ev : List (Nat × Nat)}
    (he : ∀ p ∈ s.particles, p.energy = ph.energy p.pos)
    (hu : flagOption o "recalculate-probabilities" = true → ∀ u ∈ (ops.random s.particles.length s.rng).1, 0 < u)
    (h : doBirthDeath b.cfg ops s = .ok (ev, s')) :
    (⟨s'.particles.map phaseOf, s'.rng, s'.stats⟩ : RunState d R) =
      birthDeathStep ops ld o ph ⟨s.particles.map phaseOf, s.rng, s.stats⟩ := by
  subst hcorr
  rw [hf.cfg] at h
  have hrate := rates_of c ld o ph hkt hf.bandwidth (c.dt * natOption o "stride" 0) (factorOf o)
    (flagOption o "recalculate-probabilities")
  have hlaw : (realBdCfg ⟨fun k => bandwidthOf o k, c.kt, variantOf o, ph.correction⟩ (c.dt * natOption o "stride" 0)
    (factorOf o) (flagOption o "recalculate-probabilities")
    (fun p : LdParticle ℝ d => ⟨p.pos, p.energy⟩)).Lawful := realBdCfg_lawful _ _ _ _ _
  generalize hcfg : realBdCfg ⟨fun k => bandwidthOf o k, c.kt, variantOf o, ph.correction⟩ (c.dt * natOption o "stride" 0)
    (factorOf o) (flagOption o "recalculate-probabilities")
    (fun p : LdParticle ℝ d => ⟨p.pos, p.energy⟩) = cfg at h hrate hlaw
  have hacc : ∀ u (x : ℝ), cfg.accept u (x : WithBot ℝ) = @decide (u ≤ eventProb ld o x) (Classical.propDecidable _) := by
    intro u x
    rw [← hcfg]
    have : acceptProb (c.dt * natOption o "stride" 0) (factorOf o) (x : WithBot ℝ) = eventProb ld o x := by
      rw [eventProb, ← hdt]; rfl
    simp only [realBdCfg, this]
  have hgt : ∀ (x : ℝ), cfg.gt0 (x : WithBot ℝ) = @decide (0 < x) (Classical.propDecidable _) := by
    intro x
    rw [← hcfg]
    simp only [realBdCfg]
    congr 1
    exact propext WithBot.coe_pos
  have hlt : ∀ (x : ℝ), cfg.lt0 (x : WithBot ℝ) = @decide (x < 0) (Classical.propDecidable _) := by
    intro x
    rw [← hcfg]
    simp only [realBdCfg]
    congr 1
    exact propext WithBot.coe_lt_zero
  have hsel : ∀ ps : List (LdParticle ℝ d), (∀ p ∈ ps, p.energy = ph.energy p.pos) →
      ps.length = s.particles.length → ∀ i, i < s.particles.length →
      selectedAt cfg (bdRand ops s) ps i = @decide ((ops.random s.particles.length s.rng).1.getD i 0 ≤
          eventProb ld o (rateOf ld o ph (ps.map phaseOf) i)) (Classical.propDecidable _) ∧
      ((cfg.calcBetas ps)[i]?).any cfg.gt0 =
        @decide (0 < rateOf ld o ph (ps.map phaseOf) i) (Classical.propDecidable _) ∧
      ((cfg.calcBetas ps)[i]?).any cfg.lt0 =
        @decide (rateOf ld o ph (ps.map phaseOf) i < 0) (Classical.propDecidable _) := by
    intro ps hp hl i hi
    have hr : i < (bdRand ops s).length := by
      unfold bdRand
      rw [hops.random_length]
      exact hi
    have h1 := hrate ps hp i
    rw [if_pos (by omega)] at h1
    refine ⟨?_, by rw [h1, Option.any_some, hgt], by rw [h1, Option.any_some, hlt]⟩
    have hr' : i < (ops.random s.particles.length s.rng).1.length := hr
    simp only [selectedAt, h1, hacc, List.getElem?_eq_getElem hr, List.getD_eq_getElem?_getD,
      List.getElem?_eq_getElem hr', Option.getD_some]
    rfl
  unfold birthDeathStep
  simp only [List.length_map]
  cases hm : flagOption o "recalculate-probabilities" with
  | false =>
    have hm' : cfg.recalcProbs = false := by rw [← hcfg]; exact hm
    obtain ⟨h1, h2, h3, h4⟩ := bd_bulk_exact hlaw hm' h
    have hpos : positiveAt cfg (bdBeta cfg s) =
        fun i => @decide (0 < rateOf ld o ph (s.particles.map phaseOf) i) (Classical.propDecidable _) := by
      funext i
      by_cases hi : i < s.particles.length
      · exact (hsel s.particles he rfl i hi).2.1
      · have h1 := hrate s.particles he i
        rw [if_neg hi] at h1
        have h2 : rateOf ld o ph (s.particles.map phaseOf) i = 0 := by
          rw [rateOf, dif_neg (by simpa using hi)]
        simp only [positiveAt, bdBeta, h1, h2]
        simp
    have hacc' : acceptedIndices cfg (bdRand ops s) (bdBeta cfg s) = (List.range s.particles.length).filter
        (fun i => @decide ((ops.random s.particles.length s.rng).1.getD i 0 ≤
          eventProb ld o (rateOf ld o ph (s.particles.map phaseOf) i)) (Classical.propDecidable _)) := by
      unfold acceptedIndices
      rw [show (bdBeta cfg s).length = s.particles.length from hlaw _]
      apply List.filter_congr
      intro i hi
      exact (hsel s.particles he rfl i (List.mem_range.1 hi)).1
    rw [hpos, hacc'] at h2 h3 h4
    simp only [Bool.false_eq_true, if_false]
    rw [h2, h3, h4, foldl_copyWalker_map]
    rfl
  | true =>
    have hm' : cfg.recalcProbs = true := by rw [← hcfg]; exact hm
    have hz : ∀ u ∈ bdRand ops s, ∀ b, cfg.accept u b = true → cfg.gt0 b = true ∨ cfg.lt0 b = true := by
      intro u hu' b ha
      rw [← hcfg] at ha ⊢
      have ha' : u ≤ acceptProb (c.dt * natOption o "stride" 0) (factorOf o) b :=
        @of_decide_eq_true _ (Classical.propDecidable _) ha
      have hne : b ≠ ((0 : ℝ) : WithBot ℝ) := by
        rintro rfl
        rw [show acceptProb (c.dt * natOption o "stride" 0) (factorOf o) ((0 : ℝ) : WithBot ℝ) = 0 by
          simp [acceptProb]] at ha'
        exact absurd (hu hm u hu') (not_lt.2 ha')
      rcases lt_or_gt_of_ne hne with h | h
      · exact Or.inr (@decide_eq_true _ (Classical.propDecidable _) h)
      · exact Or.inl (@decide_eq_true _ (Classical.propDecidable _) h)
    obtain ⟨h1, h2, h3, h4⟩ := bd_recalc_exact hm' hz h
    simp only [if_true]
    have hperm := hops.shuffle_perm (List.range s.particles.length) (ops.random s.particles.length s.rng).2
    have key := recalcTurns_map phaseOf (fun p => p.energy = ph.energy p.pos) s.particles.length
      (selectedAt cfg (bdRand ops s)) (fun ps i => ((cfg.calcBetas ps)[i]?).any cfg.gt0)
      (fun ps i => ((cfg.calcBetas ps)[i]?).any cfg.lt0)
      (fun xs i => @decide ((ops.random s.particles.length s.rng).1.getD i 0 ≤
        eventProb ld o (rateOf ld o ph xs i)) (Classical.propDecidable _))
      (fun xs i => @decide (0 < rateOf ld o ph xs i) (Classical.propDecidable _))
      (fun xs i => @decide (rateOf ld o ph xs i < 0) (Classical.propDecidable _))
      (fun k => (ops.integers (s.particles.length - 1) (intState ops s.particles.length
        (ops.shuffle (List.range s.particles.length) (ops.random s.particles.length s.rng).2).2 k)).1) hsel
      (ops.shuffle (List.range s.particles.length) (ops.random s.particles.length s.rng).2).1 s.particles []
      (fun i hi => List.mem_range.1 (hperm.mem_iff.1 hi)) he rfl
    unfold afterInts
    unfold intState at key h2 h3 h4
    rw [key, h2, h3, h4]

end Bdld
