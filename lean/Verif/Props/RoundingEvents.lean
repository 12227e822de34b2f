import Verif.Props.Rounding
import Verif.Props.MainPath
import Verif.Spec.Computed
import Verif.Lemmas.BirthDeath

/-
C110: rounding errors and birth-death events.
-/

namespace Bdld
open Spec

section generic
variable {P P' B B' U U' R : Type}

/-- The same random numbers, up to a translation of floats. -/
structure SameNumbers (ops : RngOps R U) (ops' : RngOps R U') (v : U → U') : Prop where
  random : ∀ n r, ops'.random n r = ((ops.random n r).1.map v, (ops.random n r).2)
  shuffle : ∀ l r, ops'.shuffle l r = ops.shuffle l r
  integers : ∀ n r, ops'.integers n r = ops.integers n r

/-- All comparisons made with two lists of rates have the same results. -/
def SameDecisions (c : BdCfg P B U) (c' : BdCfg P' B' U') (v : U → U') (beta : List B) (beta' : List B') (rand : List U) : Prop :=
  List.Forall₂ (fun b b' => c.gt0 b = c'.gt0 b' ∧ c.lt0 b = c'.lt0 b') beta beta' ∧
    ∀ (i : Nat) b b' r, beta[i]? = some b → beta'[i]? = some b' → rand[i]? = some r → c.accept r b = c'.accept (v r) b'

variable {c : BdCfg P B U} {c' : BdCfg P' B' U'} {v : U → U'} {ops : RngOps R U} {ops' : RngOps R U'}

theorem forall₂_getElem? {α β : Type} {S : α → β → Prop} {l : List α} {l' : List β} (h : List.Forall₂ S l l') (i : Nat) :
    (l[i]? = none ∧ l'[i]? = none) ∨ ∃ x y, l[i]? = some x ∧ l'[i]? = some y ∧ S x y := by
  induction h generalizing i with
  | nil => left; simp
  | cons hx _ ih =>
    cases i with
    | zero => right; exact ⟨_, _, rfl, rfl, hx⟩
    | succ i => simpa using ih i

theorem forall₂_set {α β : Type} {S : α → β → Prop} {l : List α} {l' : List β} (h : List.Forall₂ S l l') (i : Nat) {x : α} {y : β}
    (hxy : S x y) : List.Forall₂ S (l.set i x) (l'.set i y) := by
  induction h generalizing i with
  | nil => simp
  | cons hx ht ih =>
    cases i with
    | zero => exact .cons hxy ht
    | succ i => exact .cons hx (ih i)

/-- The same move of related lists. -/
theorem performMove_rel {S : P → P' → Prop} {ps : List P} {qs qs' : List P'} (h : List.Forall₂ S ps qs) (e : Nat × Nat)
    (hq : performMove qs e = .ok qs') : ∃ ps', performMove ps e = .ok ps' ∧ List.Forall₂ S ps' qs' := by
  unfold performMove at hq ⊢
  rcases forall₂_getElem? h e.1 with ⟨h1, h2⟩ | ⟨x, y, h1, h2, hxy⟩
  · rw [h2] at hq
    cases hq
  · rw [h2] at hq
    rw [h1]
    dsimp only at hq ⊢
    rw [h.length_eq]
    split at hq
    · next hlt =>
      cases hq
      rw [if_pos hlt]
      exact ⟨_, rfl, forall₂_set h _ hxy⟩
    · cases hq

theorem performMoves_rel {S : P → P' → Prop} (es : List (Nat × Nat)) : ∀ {ps : List P} {qs qs' : List P'},
    List.Forall₂ S ps qs → performMoves qs es = .ok qs' → ∃ ps', performMoves ps es = .ok ps' ∧ List.Forall₂ S ps' qs' := by
  induction es with
  | nil =>
    intro ps qs qs' h hq
    cases hq
    exact ⟨ps, rfl, h⟩
  | cons e es ih =>
    intro ps qs qs' h hq
    unfold performMoves at hq ⊢
    rw [List.foldlM_cons] at hq ⊢
    obtain ⟨q1, h1, h2⟩ := bind_ok hq
    obtain ⟨p1, h3, h4⟩ := performMove_rel h e h1
    rw [h3, ok_bind]
    exact ih h4 h2

theorem acceptedIndices_same {beta : List B} {beta' : List B'} {rand : List U} (h : SameDecisions c c' v beta beta' rand) :
    acceptedIndices c rand beta = acceptedIndices c' (rand.map v) beta' := by
  unfold acceptedIndices
  rw [h.1.length_eq]
  refine List.filter_congr fun i _ => ?_
  rw [List.getElem?_map]
  rcases forall₂_getElem? h.1 i with ⟨h1, h2⟩ | ⟨b, b', h1, h2, _⟩
  · rw [h1, h2]
    cases rand[i]? <;> rfl
  · rw [h1, h2]
    cases hr : rand[i]? with
    | none => rfl
    | some r => exact h.2 i b b' r h1 h2 hr

theorem countP_same {beta : List B} {beta' : List B'} {S : B → B' → Prop} (h : List.Forall₂ S beta beta') (f : B → Bool) (f' : B' → Bool)
    (hf : ∀ b b', S b b' → f b = f' b') : beta.countP f = beta'.countP f' := by
  induction h with
  | nil => rfl
  | cons hx _ ih => rw [List.countP_cons, List.countP_cons, ih, hf _ _ hx]

theorem randomOther_same (hs : SameNumbers ops ops' v) (n i : Nat) (r : R) : randomOther ops' n i r = randomOther ops n i r := by
  unfold randomOther
  rw [hs.integers]

theorem bulkStep_same (hs : SameNumbers ops ops' v) {beta : List B} {beta' : List B'} {rand : List U}
    (h : SameDecisions c c' v beta beta' rand) (n : Nat) : bulkStep c' ops' n beta' = bulkStep c ops n beta := by
  funext l i
  unfold bulkStep
  split
  · rfl
  · rw [randomOther_same hs]
    rcases forall₂_getElem? h.1 i with ⟨h1, h2⟩ | ⟨b, b', h1, h2, h3⟩
    · rw [h1, h2]
    · rw [h1, h2]
      dsimp only
      rw [h3.1]

/-- **C110.** Without recalculation: if the decisions for the initial rates agree, events, counters and generator agree. -/
theorem bulk_same (hs : SameNumbers ops ops' v) {S : P → P' → Prop} {ps : List P} {qs : List P'} (hp : List.Forall₂ S ps qs)
    (rng : R) (stats : BdStats) {beta : List B} {beta' : List B'} {rand : List U} (h : SameDecisions c c' v beta beta' rand) (r : R)
    (y' : List (Nat × Nat) × BdState P' R) (hy : doBulk c' ops' ⟨qs, rng, stats⟩ beta' (rand.map v) r = .ok y') :
    ∃ y, doBulk c ops ⟨ps, rng, stats⟩ beta rand r = .ok y ∧ y.1 = y'.1 ∧ List.Forall₂ S y.2.particles y'.2.particles ∧
      y.2.rng = y'.2.rng ∧ y.2.stats = y'.2.stats := by
  unfold doBulk at hy ⊢
  dsimp only at hy ⊢
  rw [hs.shuffle, ← acceptedIndices_same h, bulkStep_same hs h, ← hp.length_eq,
    ← countP_same h.1 c.gt0 c'.gt0 (fun _ _ h => h.1)] at hy
  obtain ⟨l, h1, hy⟩ := bind_ok hy
  rw [h1, ok_bind]
  obtain ⟨qs', h2, hy⟩ := bind_ok hy
  obtain ⟨ps', h3, h4⟩ := performMoves_rel _ hp h2
  rw [h3, ok_bind]
  cases hy
  exact ⟨_, rfl, rfl, h4, rfl, rfl⟩

/-- One step of the loop with recalculation. -/
theorem recalcStep_same (hs : SameNumbers ops ops' v) {S : P → P' → Prop} {rand : List U} (n i : Nat) {l : RecalcLoop P B R}
    {l' : RecalcLoop P' B' R} (hb : SameDecisions c c' v l.beta l'.beta rand) (hp : List.Forall₂ S l.particles l'.particles)
    (hr : l.rng = l'.rng) (hst : l.stats = l'.stats) (hcur : l.currEvent = l'.currEvent) (hev : l.events = l'.events)
    (m' : RecalcLoop P' B' R) (h : recalcStep c' ops' n (rand.map v) l' i = .ok m') :
    ∃ m, recalcStep c ops n rand l i = .ok m ∧ List.Forall₂ S m.particles m'.particles ∧ m.rng = m'.rng ∧ m.stats = m'.stats ∧
      m.currEvent = m'.currEvent ∧ m.events = m'.events ∧
      ((m.beta = l.beta ∧ m'.beta = l'.beta) ∨ (m.beta = c.calcBetas m.particles ∧ m'.beta = c'.calcBetas m'.particles)) := by
  unfold recalcStep at h ⊢
  rw [List.getElem?_map] at h
  rcases forall₂_getElem? hb.1 i with ⟨h1, h2⟩ | ⟨b, b', h1, h2, h3, h4⟩
  · rw [h2] at h
    cases h
  · rw [h2] at h
    rw [h1]
    cases hri : rand[i]? with
    | none =>
      rw [hri] at h
      cases h
    | some r =>
      rw [hri] at h
      dsimp only [Option.map] at h ⊢
      have hat : recalcAttempts c b l.stats = recalcAttempts c' b' l'.stats := by
        unfold recalcAttempts
        rw [h3, h4, hst]
      have hev2 : ∀ o st, recalcEvent c b i o l.currEvent st = recalcEvent c' b' i o l'.currEvent st := by
        intro o st
        unfold recalcEvent
        rw [h3, h4, hcur]
      rw [hb.2 i b b' r h1 h2 hri, hat]
      split at h
      · next hacc =>
        rw [if_pos hacc]
        rw [randomOther_same hs, ← hr] at h
        obtain ⟨⟨o, rng⟩, ho, h⟩ := bind_ok h
        rw [ho, ok_bind]
        dsimp only at h ⊢
        rw [hev2]
        generalize recalcEvent c' b' i o l'.currEvent (recalcAttempts c' b' l'.stats) = ev at h
        obtain ⟨e1, st⟩ := ev
        cases e1 with
        | none => cases h
        | some e =>
          dsimp only at h ⊢
          obtain ⟨qs, hq, h⟩ := bind_ok h
          obtain ⟨ps, hp1, hp2⟩ := performMove_rel hp e hq
          rw [hp1, ok_bind]
          cases h
          exact ⟨_, rfl, hp2, rfl, rfl, rfl, by rw [hev], Or.inr ⟨rfl, rfl⟩⟩
      · next hacc =>
        rw [if_neg hacc]
        cases h
        exact ⟨_, rfl, hp, hr, rfl, hcur, hev, Or.inl ⟨rfl, rfl⟩⟩

theorem recalcStep_events {R P B U : Type} {c : BdCfg P B U} {ops : RngOps R U} {n i : Nat} {rand : List U} {l m : RecalcLoop P B R}
    (h : recalcStep c ops n rand l i = .ok m) :
    (m.events = l.events ∧ m.particles = l.particles ∧ m.beta = l.beta) ∨
      ∃ e, m.events = l.events ++ [e] ∧ performMove l.particles e = .ok m.particles ∧ m.beta = c.calcBetas m.particles := by
  unfold recalcStep at h
  split at h
  · split at h
    · obtain ⟨⟨o, rng⟩, _, h⟩ := bind_ok h
      dsimp only at h
      split at h
      · cases h
      · next e _ =>
        obtain ⟨ps, hp, h⟩ := bind_ok h
        cases h
        exact Or.inr ⟨e, rfl, hp, rfl⟩
    · cases h
      exact Or.inl ⟨rfl, rfl, rfl⟩
  · cases h

theorem recalc_events {R P B U : Type} {c : BdCfg P B U} {ops : RngOps R U} {n : Nat} {rand : List U} : ∀ (is : List Nat)
    {l m : RecalcLoop P B R}, is.foldlM (recalcStep c ops n rand) l = .ok m → ∃ es, m.events = l.events ++ es
  | [], l, m, h => by
    cases h
    exact ⟨[], by simp⟩
  | i :: is, l, m, h => by
    rw [List.foldlM_cons] at h
    obtain ⟨k, h1, h2⟩ := bind_ok h
    obtain ⟨es, h3⟩ := recalc_events is h2
    rcases recalcStep_events h1 with ⟨h4, _⟩ | ⟨e, h4, _⟩
    · exact ⟨es, by rw [h3, h4]⟩
    · exact ⟨e :: es, by rw [h3, h4]; simp⟩

/-- Lists of walkers that occur while the given events happen one after another. -/
def Visited {P : Type} (qs : List P) (es : List (Nat × Nat)) (x : List P) : Prop :=
  ∃ m ≤ es.length, CopyMoves (es.take m) qs x

theorem recalcLoop_same (hs : SameNumbers ops ops' v) {S : P → P' → Prop} {rand : List U} (n : Nat) {qs : List P'}
    {es : List (Nat × Nat)} (hdec : ∀ x y, List.Forall₂ S x y → Visited qs es y → SameDecisions c c' v (c.calcBetas x) (c'.calcBetas y) rand) :
    ∀ (is : List Nat) {l : RecalcLoop P B R} {l' : RecalcLoop P' B' R}, List.Forall₂ S l.particles l'.particles →
    SameDecisions c c' v l.beta l'.beta rand → l.rng = l'.rng → l.stats = l'.stats → l.currEvent = l'.currEvent → l.events = l'.events →
    performMoves qs l'.events = .ok l'.particles → ∀ m', is.foldlM (recalcStep c' ops' n (rand.map v)) l' = .ok m' → m'.events = es →
    ∃ m, is.foldlM (recalcStep c ops n rand) l = .ok m ∧ List.Forall₂ S m.particles m'.particles ∧ m.rng = m'.rng ∧
      m.stats = m'.stats ∧ m.events = m'.events
  | [], l, l', hp, _, hr, hst, _, hev, _, m', h, _ => by
    cases h
    exact ⟨l, rfl, hp, hr, hst, hev⟩
  | i :: is, l, l', hp, hb, hr, hst, hcur, hev, hmv, m', h, hes => by
    rw [List.foldlM_cons] at h ⊢
    obtain ⟨k', h1, h2⟩ := bind_ok h
    obtain ⟨k, g1, g2, g3, g4, g5, g6, g7⟩ := recalcStep_same hs n i hb hp hr hst hcur hev k' h1
    rw [g1, ok_bind]
    have hmv' : performMoves qs k'.events = .ok k'.particles := by
      rcases recalcStep_events h1 with ⟨a1, a2, _⟩ | ⟨e, a1, a2, _⟩
      · rw [a1, a2, hmv]
      · unfold performMoves at hmv ⊢
        rw [a1, List.foldlM_append, hmv, ok_bind, List.foldlM_cons, a2, ok_bind]
        rfl
    refine recalcLoop_same hs n hdec is g2 ?_ g3 g4 g5 g6 hmv' m' h2 hes
    rcases g7 with ⟨a1, a2⟩ | ⟨a1, a2⟩
    · rw [a1, a2]
      exact hb
    · rw [a1, a2]
      obtain ⟨r, hr⟩ := recalc_events is h2
      refine hdec _ _ g2 ⟨k'.events.length, ?_, ?_⟩
      · rw [← hes, hr]
        simp
      · rw [← hes, hr, List.take_left']
        · exact performMoves_ok _ hmv'
        · rfl

/-- **C110.** The whole birth-death algorithm: related walkers, the same random numbers, and the same decisions for all lists of
walkers that occur, give the same events, counters and generator, and related walkers. -/
theorem birthDeath_same (hs : SameNumbers ops ops' v) {S : P → P' → Prop} (hmode : c.recalcProbs = c'.recalcProbs) {s : BdState P R}
    {s' : BdState P' R} (hp : List.Forall₂ S s.particles s'.particles) (hr : s.rng = s'.rng) (hst : s.stats = s'.stats)
    (y' : List (Nat × Nat) × BdState P' R) (hy : doBirthDeath c' ops' s' = .ok y')
    (hdec : ∀ x y, List.Forall₂ S x y → (y = s'.particles ∨ c'.recalcProbs = true ∧ Visited s'.particles y'.1 y) →
      SameDecisions c c' v (c.calcBetas x) (c'.calcBetas y) (ops.random s.particles.length s.rng).1) :
    ∃ y, doBirthDeath c ops s = .ok y ∧ y.1 = y'.1 ∧ List.Forall₂ S y.2.particles y'.2.particles ∧ y.2.rng = y'.2.rng ∧
      y.2.stats = y'.2.stats := by
  obtain ⟨ps, rng, stats⟩ := s
  obtain ⟨qs, rng', stats'⟩ := s'
  dsimp only at hp hr hst hdec
  subst hr hst
  unfold doBirthDeath at hy ⊢
  dsimp only at hy ⊢
  rw [hs.random, ← hp.length_eq, ← hmode] at hy
  have h0 := hdec ps qs hp (Or.inl rfl)
  generalize hx : ops.random ps.length rng = x at *
  dsimp only at hy h0
  split at hy
  · next hm =>
    rw [if_pos hm]
    unfold doRecalc at hy ⊢
    dsimp only at hy ⊢
    rw [hs.shuffle, ← hp.length_eq] at hy
    obtain ⟨m', h1, hy⟩ := bind_ok hy
    cases hy
    obtain ⟨m, g1, g2, g3, g4, g5⟩ := recalcLoop_same hs ps.length (rand := x.1) (qs := qs) (es := m'.events)
      (fun x y h1 h2 => hdec x y h1 (Or.inr ⟨hmode ▸ hm, h2⟩)) _ (l := ⟨ps, c.calcBetas ps, _, stats, none, []⟩)
      hp h0 rfl rfl rfl rfl rfl m' h1 rfl
    rw [g1, ok_bind]
    exact ⟨_, rfl, g5, g2, g3, g4⟩
  · next hm =>
    rw [if_neg hm]
    exact bulk_same hs hp rng stats h0 x.2 y' hy

end generic

/-! ### Margins -/

/-- No decision is close: all rates are farther than `κ` from zero, all random numbers farther than `π` from the probability. -/
def Clear (κ π dt rateFac : ℝ) (beta : List (WithBot ℝ)) (rand : List ℝ) : Prop :=
  (∀ b ∈ beta, ∀ x : ℝ, b = x → κ < |x|) ∧
    ∀ (i : Nat) b r, beta[i]? = some b → rand[i]? = some r → π < |r - acceptProb dt rateFac b|

section real
variable {F : Type} [Add F] [Sub F] [Mul F] [Div F] [Neg F] [LT F]

/-- A computed rate close to an exact, finite one. -/
def CloseRate (A : Rounding F) (κ : Bnd) (b : F) (β : WithBot ℝ) : Prop := ∃ x : ℝ, β = x ∧ Near A κ b x

/-- The computed birth-death algorithm approximates the exact one for `n` walkers in relation `S`: errors of the rates are at most `κ.err`,
and comparisons with a margin `π` are right. -/
structure RateBound {P P' : Type} {d : Nat} (A : Rounding F) (bd : BdCfg P F F) (rc : RateCfg d) (dt rateFac : ℝ)
    (recalc : Bool) (view : P' → Walker d) (S : P → P' → Prop) (n : Nat) (κ : Bnd) (π : ℝ) : Prop where
  mode : bd.recalcProbs = recalc
  rates : ∀ ps qs, qs.length = n → List.Forall₂ S ps qs →
    List.Forall₂ (CloseRate A κ) (bd.calcBetas ps) ((realBdCfg rc dt rateFac recalc view).calcBetas qs)
  gt0 : ∀ b, A.fin b → (bd.gt0 b = true ↔ 0 < A.val b)
  lt0 : ∀ b, A.fin b → (bd.lt0 b = true ↔ A.val b < 0)
  accept : ∀ r b β, A.fin r → CloseRate A κ b β → π < |A.val r - acceptProb dt rateFac β| →
    (bd.accept r b = true ↔ A.val r ≤ acceptProb dt rateFac β)

variable {P P' R : Type} {d : Nat} {A : Rounding F} {bd : BdCfg P F F} {rc : RateCfg d} {dt rateFac : ℝ}
  {recalc : Bool} {view : P' → Walker d} {S : P → P' → Prop} {n : Nat} {κ : Bnd} {π : ℝ}

theorem rateBound_decisions (h : RateBound A bd rc dt rateFac recalc view S n κ π) {ps : List P} {qs : List P'} (hn : qs.length = n)
    (hp : List.Forall₂ S ps qs) {rand : List F} (hrand : ∀ r ∈ rand, A.fin r)
    (hc : Clear κ.err π dt rateFac ((realBdCfg rc dt rateFac recalc view).calcBetas qs) (rand.map A.val)) :
    SameDecisions bd (realBdCfg rc dt rateFac recalc view) A.val (bd.calcBetas ps) ((realBdCfg rc dt rateFac recalc view).calcBetas qs)
      rand := by
  have hr := h.rates ps qs hn hp
  generalize (realBdCfg rc dt rateFac recalc view).calcBetas qs = beta' at hr hc ⊢
  generalize bd.calcBetas ps = beta at hr ⊢
  refine ⟨?_, ?_⟩
  · have hc1 := hc.1
    clear hc
    induction hr with
    | nil => exact .nil
    | @cons b β l l' hb ht ih =>
      refine .cons ?_ (ih fun b hb => hc1 b (List.mem_cons_of_mem _ hb))
      obtain ⟨x, rfl, hf, hx, _⟩ := hb
      have hk := hc1 _ List.mem_cons_self x rfl
      have h0 := (abs_nonneg _).trans hx
      have e1 := h.gt0 b hf
      have e2 := h.lt0 b hf
      have hx' := abs_le.1 hx
      have g1 : (0 : WithBot ℝ) < ((x : ℝ) : WithBot ℝ) ↔ 0 < x := WithBot.coe_lt_coe
      have g2 : ((x : ℝ) : WithBot ℝ) < 0 ↔ x < 0 := WithBot.coe_lt_coe
      simp only [realBdCfg]
      rcases lt_abs.1 hk with hk | hk
      · constructor <;> rw [Bool.eq_iff_iff, @decide_eq_true_iff _ (Classical.propDecidable _)]
        · exact e1.trans (Iff.trans ⟨fun _ => by linarith, fun _ => by linarith⟩ g1.symm)
        · exact e2.trans (Iff.trans ⟨fun _ => by linarith, fun _ => by linarith⟩ g2.symm)
      · constructor <;> rw [Bool.eq_iff_iff, @decide_eq_true_iff _ (Classical.propDecidable _)]
        · exact e1.trans (Iff.trans ⟨fun _ => by linarith, fun _ => by linarith⟩ g1.symm)
        · exact e2.trans (Iff.trans ⟨fun _ => by linarith, fun _ => by linarith⟩ g2.symm)
  · intro i b β r hb hβ hri
    rcases forall₂_getElem? hr i with ⟨h1, _⟩ | ⟨b1, β1, h1, h2, h3⟩
    · rw [h1] at hb
      cases hb
    · rw [hb] at h1
      rw [hβ] at h2
      cases h1
      cases h2
      have := hc.2 i β (A.val r) hβ (by rw [List.getElem?_map, hri]; rfl)
      simp only [realBdCfg]
      rw [Bool.eq_iff_iff, decide_eq_true_iff]
      exact h.accept r b β (hrand r (List.mem_of_getElem? hri)) h3 this

/-- **C110.** Birth-death with rounding errors: if no decision of the exact algorithm is close, the computed algorithm makes exactly the
same events in the same order, with the same counters, and leaves walkers in the same relation. -/
theorem birthDeath_rounding {ops : RngOps R F} {ops' : RngOps R ℝ} (hs : SameNumbers ops ops' A.val)
    (hrand : ∀ n r, ∀ x ∈ (ops.random n r).1, A.fin x) {s : BdState P R} {s' : BdState P' R}
    (h : RateBound A bd rc dt rateFac recalc view S s'.particles.length κ π)
    (hp : List.Forall₂ S s.particles s'.particles) (hr : s.rng = s'.rng) (hst : s.stats = s'.stats)
    (y' : List (Nat × Nat) × BdState P' R) (hy : doBirthDeath (realBdCfg rc dt rateFac recalc view) ops' s' = .ok y')
    (hc : ∀ qs, (qs = s'.particles ∨ recalc = true ∧ Visited s'.particles y'.1 qs) →
      Clear κ.err π dt rateFac ((realBdCfg rc dt rateFac recalc view).calcBetas qs) (ops'.random s'.particles.length s'.rng).1) :
    ∃ y, doBirthDeath bd ops s = .ok y ∧ y.1 = y'.1 ∧ List.Forall₂ S y.2.particles y'.2.particles ∧ y.2.rng = y'.2.rng ∧
      y.2.stats = y'.2.stats := by
  refine birthDeath_same hs h.mode hp hr hst y' hy fun ps qs hpq hv => rateBound_decisions h ?_ hpq (hrand _ _) ?_
  · rcases hv with rfl | ⟨_, m, _, hm⟩
    · rfl
    · exact hm.length
  · have := hc qs hv
    rw [hs.random] at this
    rw [hr, hp.length_eq]
    exact this

end real

/-! ### Whole runs -/

section run
variable {F : Type} {d : Nat} [Add F] [Sub F] [Mul F] [Div F] [Neg F] [LT F] [DecidableLT F] {A : Rounding F} {B : LdBnd}

/-- One step of the integrator for all walkers. -/
theorem ldRun_rounding {kind : LdKind} {c : LdCfg F d} {c' : LdCfg ℝ d} (hc : NearCfg A B kind c c') {R : Type}
    (normal : NormalOps R F d) {s : LdState F d R} {s' : LdState ℝ d R} (hrng : s.rng = s'.rng)
    (hn : ∀ j k, A.fin (draw normal s.rng j k) ∧ |A.val (draw normal s.rng j k)| ≤ B.noise.mag) (hn0 : 0 ≤ B.noise.err) {e : ℝ × ℝ}
    (h0 : List.Forall₂ (NearWalker A B kind c c' e) s.particles s'.particles) (hE : e.1 ≤ B.E) (hE' : (B.next kind A.u A.η e).1 ≤ B.E)
    (hfit : B.fits kind A.u A.η A.Ω e) (t' : LdState ℝ d R) (ht' : s'.run kind c' (valNormal A normal) = .ok t')
    (hin : ∀ q ∈ t'.particles, Inside B kind q) :
    ∃ t, s.run kind c normal = .ok t ∧ t.rng = t'.rng ∧ t.rng = drawState normal (s.particles.length * kind.draws) s.rng ∧
      List.Forall₂ (NearWalker A B kind c c' (B.next kind A.u A.η e)) t.particles t'.particles := by
  obtain ⟨tot, _⟩ := nearCfg_total hc
  obtain ⟨x, hx⟩ := ldLoop_total kind c normal (fun noise p => walkerStep_total tot noise p) s.particles s.rng
  have hr : s.run kind c normal = .ok ⟨x.1, x.2⟩ := by
    unfold LdState.run
    rw [hx]
    rfl
  obtain ⟨a1, a2, a3⟩ := run_ok hr
  obtain ⟨b1, b2, b3⟩ := run_ok ht'
  have hl := h0.length_eq
  refine ⟨_, hr, ?_, a1, ?_⟩
  · rw [a1, b1, (valNormal_draw normal _ _).1, hrng, hl]
  · rw [List.forall₂_iff_get]
    refine ⟨by rw [a2, b2, hl], fun i hi hi' => ?_⟩
    have hip : i < s.particles.length := by omega
    have hiq : i < s'.particles.length := by omega
    obtain ⟨p', hp', hs⟩ := a3 i _ (List.getElem?_eq_getElem hip)
    obtain ⟨q', hq', hs'⟩ := b3 i _ (List.getElem?_eq_getElem hiq)
    rw [List.getElem?_eq_getElem hi] at hp'
    rw [List.getElem?_eq_getElem hi'] at hq'
    cases hp'
    cases hq'
    refine walker_rounding hc hE hE' hfit ?_ hn0 ((List.forall₂_iff_get.1 h0).2 i hip hiq) hs ?_ (hin _ (List.getElem_mem hi'))
    · exact fun j k => hn _ k
    · rw [List.get_eq_getElem]
      refine Eq.trans ?_ hs'
      congr 1
      funext j
      rw [(valNormal_draw normal _ _).2, hrng]

/-- **C110.** A whole run with rounding errors. If the exact run with the same random numbers stays inside of the bounds, and no
decision of its birth-death steps is close compared with the errors accumulated so far, then the computed run makes exactly the same
events in all steps, has the same counters and generators, and all positions and momenta differ from the exact ones at most by the
bound of C109 for pure Langevin dynamics. -/
theorem run_rounding {kind : LdKind} {c : LdCfg F d} {c' : LdCfg ℝ d} (hc : NearCfg A B kind c c') {R : Type}
    (normal : NormalOps R F d) {ops : RngOps R F} {ops' : RngOps R ℝ} (hs : SameNumbers ops ops' A.val) (hops : ops'.Lawful)
    (hrand : ∀ n r, ∀ x ∈ (ops.random n r).1, A.fin x) {bd : BdCfg (LdParticle F d) F F} {rc : RateCfg d} {dt rateFac : ℝ}
    {recalc : Bool} {view : LdParticle ℝ d → Walker d} (stride : Nat) (x : Walkers F d R) (x' : Walkers ℝ d R) (h1 : x.ldRng = x'.ldRng) (h2 : x.bdRng = x'.bdRng)
    (h3 : x.stats = x'.stats) (hn : ∀ j k, A.fin (draw normal x.ldRng j k) ∧ |A.val (draw normal x.ldRng j k)| ≤ B.noise.mag)
    (hn0 : 0 ≤ B.noise.err) (e : ℝ × ℝ) (h0 : List.Forall₂ (NearWalker A B kind c c' e) x.particles x'.particles) (κ : Nat → Bnd)
    (π : Nat → ℝ) :
    ∀ (n : Nat) (y' : List (List (Nat × Nat)) × Walkers ℝ d R),
    walkersRun kind c' (valNormal A normal) (realBdCfg rc dt rateFac recalc view) ops' stride n x' = .ok y' →
    (∀ m ≤ n, ((B.next kind A.u A.η)^[m] e).1 ≤ B.E) → (∀ m < n, B.fits kind A.u A.η A.Ω ((B.next kind A.u A.η)^[m] e)) →
    (∀ m < n, stride ∣ m + 1 → RateBound A bd rc dt rateFac recalc view (NearWalker A B kind c c' ((B.next kind A.u A.η)^[m + 1] e))
      x'.particles.length (κ (m + 1)) (π (m + 1))) →
    (∀ m < n, ∀ t z, walkersRun kind c' (valNormal A normal) (realBdCfg rc dt rateFac recalc view) ops' stride m x' = .ok t →
      LdState.run kind c' (valNormal A normal) ⟨t.2.particles, t.2.ldRng⟩ = .ok z →
        (∀ q ∈ z.particles, Inside B kind q) ∧
        (stride ∣ m + 1 → ∀ w, doBirthDeath (realBdCfg rc dt rateFac recalc view) ops' ⟨z.particles, t.2.bdRng, t.2.stats⟩ = .ok w →
          ∀ qs, (qs = z.particles ∨ recalc = true ∧ Visited z.particles w.1 qs) →
            Clear (κ (m + 1)).err (π (m + 1)) dt rateFac ((realBdCfg rc dt rateFac recalc view).calcBetas qs)
              (ops'.random z.particles.length t.2.bdRng).1)) →
    ∃ y, walkersRun kind c normal bd ops stride n x = .ok y ∧ y.1 = y'.1 ∧ y.2.ldRng = y'.2.ldRng ∧ y.2.bdRng = y'.2.bdRng ∧
      y.2.stats = y'.2.stats ∧ y'.2.particles.length = x'.particles.length ∧ (∃ j, y.2.ldRng = drawState normal j x.ldRng) ∧
      List.Forall₂ (NearWalker A B kind c c' ((B.next kind A.u A.η)^[n] e)) y.2.particles y'.2.particles
  | 0, y', hy, _, _, _, _ => by
    cases hy
    exact ⟨_, rfl, rfl, h1, h2, h3, rfl, ⟨0, rfl⟩, h0⟩
  | n + 1, y', hy, hE, hfit, hb, hin => by
    unfold walkersRun at hy ⊢
    obtain ⟨t', ht', hy⟩ := bind_ok hy
    obtain ⟨t, g1, g2, g3, g4, g5, g6, ⟨j, g7⟩, g8⟩ := run_rounding hc normal hs hops hrand stride x x' h1 h2 h3 hn hn0 e h0 κ π n t' ht'
      (fun m hm => hE m (by omega)) (fun m hm => hfit m (by omega)) (fun m hm => hb m (by omega)) (fun m hm => hin m (by omega))
    rw [g1, ok_bind]
    obtain ⟨w', hw', hy⟩ := bind_ok hy
    cases hy
    unfold walkersStep at hw' ⊢
    obtain ⟨z', hz', hw'⟩ := bind_ok hw'
    obtain ⟨i1, i2⟩ := hin n (by omega) t' z' ht' hz'
    have hEn := hE (n + 1) le_rfl
    rw [Function.iterate_succ_apply'] at hEn
    obtain ⟨z, k1, k2, k3, k4⟩ := ldRun_rounding hc normal (s := ⟨t.2.particles, t.2.ldRng⟩) g3
      (fun j' k => by
        dsimp only
        rw [g7, draw_add]
        exact hn _ k) hn0 g8 (hE n (by omega)) hEn (hfit n (by omega)) z' hz' i1
    rw [← Function.iterate_succ_apply' (B.next kind A.u A.η)] at k4 hEn
    have hlen : z'.particles.length = x'.particles.length := by
      rw [(run_ok hz').2.1]
      exact g6
    have hdraw : ∃ j, z.rng = drawState normal j x.ldRng := by
      rw [k3]
      dsimp only
      rw [g7, ← drawState_add]
      exact ⟨_, rfl⟩
    rw [k1, ok_bind]
    split at hw'
    · next hd =>
      rw [if_pos hd]
      obtain ⟨u', hu', hw'⟩ := bind_ok hw'
      cases hw'
      have hbn := hb n (by omega) hd
      rw [← hlen] at hbn
      obtain ⟨u, l1, l2, l3, l4, l5⟩ := birthDeath_rounding hs hrand (s := ⟨z.particles, t.2.bdRng, t.2.stats⟩)
        (s' := ⟨z'.particles, t'.2.bdRng, t'.2.stats⟩) hbn k4 g4 g5 u' hu' (i2 hd u' hu')
      rw [l1, ok_bind]
      refine ⟨_, rfl, by rw [g2, l2], k2, l4, l5, ?_, hdraw, l3⟩
      dsimp only
      rw [← hlen]
      exact bd_length (fun ps => by simp [realBdCfg]) hops (ev := u'.1) (s' := u'.2) hu'
    · next hd =>
      rw [if_neg hd]
      cases hw'
      exact ⟨_, rfl, by rw [g2], k2, g4, g5, hlen, hdraw, k4⟩

/-- The dynamics of the whole program is such a run. -/
theorem dynSteps_walkers {R : Type} (w : World R) (kind : LdKind) (ld : LdCfg ℝ d) (b : BdAct d) (hb : 0 < b.stride) :
    ∀ (n : Nat) (x y : Dyn d R) (z : BdRunState R), x.bd = some z → dynSteps w kind ld (some b) n x = .ok y →
      ∃ ev u, y.bd = some u ∧ walkersRun kind ld (w.normal d) b.cfg w.bdOps b.stride n ⟨x.particles, x.ldRng, z.rng, z.stats⟩ =
        .ok (ev, ⟨y.particles, y.ldRng, u.rng, u.stats⟩)
  | 0, x, y, z, hz, h => by
    cases h
    exact ⟨_, z, hz, rfl⟩
  | n + 1, x, y, z, hz, h => by
    obtain ⟨t, ht, h⟩ := bind_ok h
    obtain ⟨ev, u, hu, g⟩ := dynSteps_walkers w kind ld b hb n x t z hz ht
    unfold walkersRun
    rw [g, ok_bind]
    unfold dynStep at h
    obtain ⟨s, hs, h⟩ := bind_ok h
    rw [hu] at h
    dsimp only at h
    obtain ⟨r, hr, h⟩ := bind_ok h
    cases h
    unfold walkersStep
    dsimp only
    rw [hs, ok_bind]
    unfold bdRun at hr
    rw [if_neg (by omega)] at hr
    simp only [pure_eq_ok] at hr
    by_cases hd : (n + 1) % b.stride = 0
    · rw [if_pos hd] at hr
      rw [if_pos (Nat.dvd_of_mod_eq_zero hd)]
      cases hq : doBirthDeath b.cfg w.bdOps ⟨s.particles, u.rng, u.stats⟩ with
      | error e => rw [hq] at hr; cases hr
      | ok q =>
        rw [hq] at hr
        cases hr
        exact ⟨_, _, rfl, rfl⟩
    · rw [if_neg hd] at hr
      rw [if_neg (fun h => hd (Nat.mod_eq_zero_of_dvd h))]
      cases hr
      exact ⟨_, _, rfl, rfl⟩

end run

end Bdld
