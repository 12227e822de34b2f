import Verif.Props.EventRates
import Verif.Props.RoundingEvents
import Mathlib.Analysis.Calculus.Deriv.Basic

/-
C141: birth-death with recalculated rates for short time steps. It is a jump process as well, but with the opposite
signs of the rates.
-/

namespace Bdld

open MeasureTheory ProbabilityTheory Spec

noncomputable section

variable {P R : Type} {d : Nat}

section loop

variable {B U : Type}

/-- A part of the loop in which no random number is accepted for the present rates. -/
theorem recalc_pass (c : BdCfg P B U) (ops : RngOps R U) (n : Nat) (rand : List U) (l : RecalcLoop P B R) :
    ∀ (order : List Nat), (∀ i ∈ order, ∃ b u, l.beta[i]? = some b ∧ rand[i]? = some u ∧ c.accept u b = false) →
      ∀ st, ∃ st', order.foldlM (recalcStep c ops n rand) { l with stats := st } = .ok { l with stats := st' }
  | [], _, st => ⟨st, rfl⟩
  | i :: order, h, st => by
    obtain ⟨b, u, hb, hu, ha⟩ := h i (by simp)
    have hstep : recalcStep c ops n rand { l with stats := st } i =
        .ok { l with stats := recalcAttempts c b st } := by
      unfold recalcStep
      simp [hb, hu, ha]
    obtain ⟨st', h'⟩ := recalc_pass c ops n rand l order (fun j hj => h j (by simp [hj])) (recalcAttempts c b st)
    exact ⟨st', by rw [List.foldlM_cons, hstep, ok_bind]; exact h'⟩

/-- The integer drawn for the first event of a step. -/
def loopInt (ops : RngOps R U) (n : Nat) (r : R) : Nat :=
  (ops.integers (n - 1) (ops.shuffle (List.range n) (ops.random n r).2).2).1

/-- The event of walker `k`, as the code builds it. -/
def loopEvent (c : BdCfg P B U) (b : B) (k o : Nat) : Nat × Nat := if c.gt0 b then (k, o) else (o, k)

/-- Walker `k` is the only one whose number is accepted, before and after its event. -/
theorem recalc_single {c : BdCfg P B U} (hm : c.recalcProbs = true) {ops : RngOps R U} (hops : ops.Lawful)
    (s : BdState P R) (k : Nat) (b : B) (u : U) (hn : 2 ≤ s.particles.length) (hk : k < s.particles.length)
    (hb : (bdBeta c s)[k]? = some b) (hu : (bdRand ops s)[k]? = some u) (ha : c.accept u b = true)
    (hs : c.gt0 b = true ∨ c.lt0 b = true)
    (hrest : ∀ i < s.particles.length, i ≠ k → ∃ b u, (bdBeta c s)[i]? = some b ∧ (bdRand ops s)[i]? = some u ∧
      c.accept u b = false)
    (hafter : ∀ ps, performMove s.particles
        (loopEvent c b k (skipExcluded (loopInt ops s.particles.length s.rng) k)) = .ok ps →
      ∀ i < s.particles.length, i ≠ k → ∃ b u, (c.calcBetas ps)[i]? = some b ∧ (bdRand ops s)[i]? = some u ∧
        c.accept u b = false) :
    ∃ s', doBirthDeath c ops s =
      .ok ([loopEvent c b k (skipExcluded (loopInt ops s.particles.length s.rng) k)], s') := by
  have hx : loopInt ops s.particles.length s.rng < s.particles.length - 1 := hops.integers_lt _ _ (by omega)
  have ho : skipExcluded (loopInt ops s.particles.length s.rng) k < s.particles.length := by
    unfold skipExcluded
    split <;> omega
  have hmv : ∃ ps, performMove s.particles
      (loopEvent c b k (skipExcluded (loopInt ops s.particles.length s.rng) k)) = .ok ps := by
    unfold loopEvent
    rcases c.gt0 b with _ | _
    · exact ⟨_, by
        simp only [performMove, Bool.false_eq_true, if_false, List.getElem?_eq_getElem ho, if_pos hk]; rfl⟩
    · exact ⟨_, by simp only [performMove, if_true, List.getElem?_eq_getElem hk, if_pos ho]; rfl⟩
  obtain ⟨ps, hps⟩ := hmv
  have hperm := hops.shuffle_perm (List.range s.particles.length) (ops.random s.particles.length s.rng).2
  have hmem : k ∈ (ops.shuffle (List.range s.particles.length) (ops.random s.particles.length s.rng).2).1 :=
    hperm.mem_iff.2 (List.mem_range.2 hk)
  obtain ⟨pre, post, hord⟩ := List.append_of_mem hmem
  have hnd : (pre ++ k :: post).Nodup := by
    rw [← hord]
    exact hperm.nodup_iff.2 List.nodup_range
  have hlt : ∀ i ∈ pre ++ k :: post, i < s.particles.length := by
    intro i hi
    rw [← hord] at hi
    exact List.mem_range.1 (hperm.mem_iff.1 hi)
  have hne1 : ∀ i ∈ pre, i ≠ k := by
    rintro i hi rfl
    exact (List.disjoint_of_nodup_append hnd) hi (by simp)
  have hne2 : ∀ i ∈ post, i ≠ k := by
    rintro i hi rfl
    exact (List.nodup_cons.1 (List.nodup_append.1 hnd).2.1).1 hi
  unfold doBirthDeath
  simp only [hm, if_true]
  unfold doRecalc
  simp only [hord, List.foldlM_append, List.foldlM_cons]
  obtain ⟨st1, h1⟩ := recalc_pass c ops s.particles.length (ops.random s.particles.length s.rng).1
    ⟨s.particles, c.calcBetas s.particles, (ops.shuffle (List.range s.particles.length)
        (ops.random s.particles.length s.rng).2).2, s.stats, none, []⟩ pre
    (fun i hi => hrest i (hlt i (by simp [hi])) (hne1 i hi)) s.stats
  have h1' := h1
  simp only at h1'
  rw [h1', ok_bind]
  have hstep : ∃ st2, recalcStep c ops s.particles.length (ops.random s.particles.length s.rng).1
      ⟨s.particles, c.calcBetas s.particles, (ops.shuffle (List.range s.particles.length)
        (ops.random s.particles.length s.rng).2).2, st1, none, []⟩ k =
      .ok ⟨ps, c.calcBetas ps, (ops.integers (s.particles.length - 1) (ops.shuffle (List.range s.particles.length)
        (ops.random s.particles.length s.rng).2).2).2, st2,
        some (loopEvent c b k (skipExcluded (loopInt ops s.particles.length s.rng) k)),
        [loopEvent c b k (skipExcluded (loopInt ops s.particles.length s.rng) k)]⟩ := by
    simp only [bdBeta] at hb
    simp only [bdRand] at hu
    unfold recalcStep
    simp only [hb, hu, ha, if_true, randomOther_eq _ _ _ _ hn, ok_bind]
    simp only [loopInt] at hps ⊢
    rcases hg : c.gt0 b with _ | _
    · have hl : c.lt0 b = true := by
        rcases hs with h | h
        · rw [hg] at h; cases h
        · exact h
      simp only [loopEvent, hg, Bool.false_eq_true, if_false] at hps ⊢
      simp only [recalcEvent, hg, hl, Bool.false_eq_true, if_false, if_true, hps, ok_bind]
      exact ⟨_, rfl⟩
    · simp only [loopEvent, hg, if_true] at hps ⊢
      simp only [recalcEvent, hg, if_true, hps, ok_bind]
      exact ⟨_, rfl⟩
  obtain ⟨st2, h2⟩ := hstep
  rw [h2, ok_bind]
  obtain ⟨st3, h3⟩ := recalc_pass c ops s.particles.length (ops.random s.particles.length s.rng).1
    ⟨ps, c.calcBetas ps, (ops.integers (s.particles.length - 1) (ops.shuffle (List.range s.particles.length)
        (ops.random s.particles.length s.rng).2).2).2, st2,
        some (loopEvent c b k (skipExcluded (loopInt ops s.particles.length s.rng) k)),
        [loopEvent c b k (skipExcluded (loopInt ops s.particles.length s.rng) k)]⟩ post
    (fun i hi => hafter ps hps i (hlt i (by simp [hi])) (hne2 i hi)) st2
  have h3' := h3
  simp only at h3'
  rw [h3', ok_bind]
  exact ⟨_, rfl⟩

/-- The first event of the loop is that of a walker whose number is accepted for the rates at the beginning. -/
theorem recalc_first {c : BdCfg P B U} {ops : RngOps R U} {n : Nat} (hn : 2 ≤ n) {rand : List U} :
    ∀ (order : List Nat) {l m : RecalcLoop P B R} {e : Nat × Nat} {es : List (Nat × Nat)},
      order.foldlM (recalcStep c ops n rand) l = .ok m → l.events = [] → l.currEvent = none → m.events = e :: es →
      ∃ k b u, k ∈ order ∧ l.beta[k]? = some b ∧ rand[k]? = some u ∧ c.accept u b = true ∧
        (c.gt0 b = true ∨ c.lt0 b = true) ∧ e = loopEvent c b k (skipExcluded (ops.integers (n - 1) l.rng).1 k)
  | [], l, m, e, es, h, h0, _, he => by
    cases h
    rw [h0] at he
    cases he
  | i :: order, l, m, e, es, h, h0, hc, he => by
    rw [List.foldlM_cons] at h
    obtain ⟨x, h1, h2⟩ := bind_ok h
    unfold recalcStep at h1
    rcases hb : l.beta[i]? with _ | b
    · simp only [hb] at h1; cases h1
    rcases hu : rand[i]? with _ | u
    · simp only [hb, hu] at h1; cases h1
    simp only [hb, hu] at h1
    by_cases ha : c.accept u b = true
    · rw [if_pos ha, randomOther_eq _ _ _ _ hn, ok_bind] at h1
      dsimp only at h1
      rcases hr : (recalcEvent c b i (skipExcluded (ops.integers (n - 1) l.rng).1 i) l.currEvent
        (recalcAttempts c b l.stats)).1 with _ | e'
      · simp only [hr] at h1; cases h1
      simp only [hr] at h1
      obtain ⟨ps, _, h1⟩ := bind_ok h1
      obtain rfl := Except.ok.inj h1
      obtain ⟨es', h3⟩ := recalc_events order h2
      simp only [h0, List.nil_append, List.singleton_append] at h3
      rw [h3] at he
      obtain rfl := (List.cons.inj he).1
      refine ⟨i, b, u, by simp, hb, hu, ha, ?_⟩
      rw [hc] at hr
      unfold recalcEvent at hr
      rcases hg : c.gt0 b with _ | _
      · rcases hl : c.lt0 b with _ | _
        · simp [hg, hl] at hr
        · simp only [hg, hl, Bool.false_eq_true, if_false, if_true, Option.some.injEq] at hr
          exact ⟨Or.inr rfl, by rw [← hr]; simp [loopEvent, hg]⟩
      · simp only [hg, if_true, Option.some.injEq] at hr
        exact ⟨Or.inl rfl, by rw [← hr]; simp [loopEvent, hg]⟩
    · rw [if_neg ha] at h1
      obtain rfl := Except.ok.inj h1
      obtain ⟨k, b', u', hk, h3⟩ := recalc_first hn order h2 h0 hc he
      exact ⟨k, b', u', List.mem_cons_of_mem _ hk, h3⟩

end loop

/-- The rates are real numbers that do not depend on time step and mode. -/
theorem rates_at (c : RateCfg d) (hbw : ∀ k, 0 < c.bw k) (view : P → Walker d) (f : ℝ) (ps : List P) :
    ∃ g : Nat → ℝ, ∀ dt, ∀ l < ps.length,
      ((realBdCfg c dt f true view).calcBetas ps)[l]? = some ((g l : ℝ) : WithBot ℝ) := by
  obtain ⟨b, hb, _⟩ := rates_sum c hbw (fun i : Fin ps.length => (view (ps.get i)).pos)
    (fun i => (view (ps.get i)).energy)
  refine ⟨fun l => if h : l < ps.length then b ⟨l, h⟩ else 0, fun dt l hl => ?_⟩
  simp only [realBdCfg, List.getElem?_ofFn, dif_pos hl, hb]

/-- The numbers drawn for a step with recalculated rates up to the first event: uniformly distributed and
independent. -/
structure IdealLoop {Ω : Type} [MeasurableSpace Ω] (Pr : Measure Ω) (ops : RngOps R ℝ) (n : Nat) (r : Ω → R)
    (u : Ω → Fin n → ℝ) : Prop where
  measurable : Measurable u
  random : ∀ ω, (ops.random n (r ω)).1 = List.ofFn (u ω)
  law : Pr.map u = unitUniforms n
  meas_int : ∀ k, MeasurableSet {ω | loopInt ops n (r ω) = k}
  joint : ∀ A : Set (Fin n → ℝ), MeasurableSet A → ∀ k < n - 1,
    Pr (u ⁻¹' A ∩ {ω | loopInt ops n (r ω) = k}) = unitUniforms n A * ((n - 1 : ℕ) : ENNReal)⁻¹

theorem unitUniforms_le {n : Nat} (k : Fin n) (p : ℝ) (h0 : 0 ≤ p) (h1 : p ≤ 1) :
    unitUniforms n {v | v k ≤ p} = ENNReal.ofReal p := by
  have h := (measurePreserving_eval (fun _ : Fin n => unitUniform) k).measure_preimage
    (s := {x : ℝ | x ≤ p}) measurableSet_Iic.nullMeasurableSet
  rw [unitUniform_le p h0 h1] at h
  exact h

theorem selProb_nonneg {n : Nat} (dt f : ℝ) (hdt : 0 ≤ dt) (hf : 0 ≤ f) (b : Fin n → ℝ) (S : Finset (Fin n)) :
    0 ≤ selProb dt f b S := by
  unfold selProb
  refine Finset.prod_nonneg (fun i _ => ?_)
  split
  · exact (acceptProb_mem dt f hdt hf (b i)).1
  · exact (Real.exp_pos _).le

theorem IdealLoop.prob {Ω : Type} [MeasurableSpace Ω] {Pr : Measure Ω} {ops : RngOps R ℝ} {n : Nat} {r : Ω → R}
    {u : Ω → Fin n → ℝ} (h : IdealLoop Pr ops n r u) : IsProbabilityMeasure Pr := by
  refine ⟨?_⟩
  have := congrArg (fun m : Measure (Fin n → ℝ) => m Set.univ) h.law
  simp only [Measure.map_apply h.measurable MeasurableSet.univ, Set.preimage_univ, measure_univ] at this
  exact this

theorem IdealLoop.joint_real {Ω : Type} [MeasurableSpace Ω] {Pr : Measure Ω} {ops : RngOps R ℝ} {n : Nat} {r : Ω → R}
    {u : Ω → Fin n → ℝ} (h : IdealLoop Pr ops n r u) {A : Set (Fin n → ℝ)} (hA : MeasurableSet A) {p : ℝ} (hp : 0 ≤ p)
    (hAp : unitUniforms n A = ENNReal.ofReal p) (i j : Fin n) (hij : i ≠ j) :
    (Pr (u ⁻¹' A ∩ {ω | loopInt ops n (r ω) = partnerInt i j})).toReal = p / (n - 1) := by
  rw [h.joint A hA _ (partnerInt_lt i.isLt j.isLt (fun e => hij (Fin.ext e))), hAp, ENNReal.toReal_mul,
    ENNReal.toReal_inv, ENNReal.toReal_natCast, ENNReal.toReal_ofReal hp, div_eq_mul_inv,
    Nat.cast_sub (by have := i.pos; omega), Nat.cast_one]

theorem accept_deriv (f b : ℝ) : HasDerivAt (fun dt : ℝ => 1 - Real.exp (-|b| * dt * f)) (f * |b|) 0 := by
  have h := (exp_deriv_zero |b| f).const_sub 1
  refine (h.congr_deriv (by ring)).congr_of_eventuallyEq (Filter.Eventually.of_forall fun dt => ?_)
  simp only
  congr 2
  ring

/-- C141: with recalculated rates the probability that a short step consists of the single event "walker `i` is
replaced by a copy of walker `j`" is `Δt f (β_i⁻ + β_j⁺) / (n - 1)` up to terms of higher order: the rates of C104
with the opposite signs. Here walkers with positive rate are duplicated and walkers with negative rate die. -/
theorem event_rate_recalc {Ω : Type} [MeasurableSpace Ω] {Pr : Measure Ω} {ops : RngOps R ℝ} (hops : ops.Lawful)
    (c : RateCfg d) (hbw : ∀ k, 0 < c.bw k) (f : ℝ) (hf : 0 ≤ f) (view : P → Walker d) (s : BdState P R) (r : Ω → R)
    (u : Ω → Fin s.particles.length → ℝ) (hid : IdealLoop Pr ops s.particles.length r u)
    (b : Fin s.particles.length → ℝ)
    (hb : ∀ i, calcBetas c (fun i : Fin s.particles.length => (view (s.particles.get i)).pos)
        (fun i => (view (s.particles.get i)).energy) i = (b i : WithBot ℝ))
    (i j : Fin s.particles.length) (hij : i ≠ j) :
    HasDerivWithinAt (fun dt => (Pr {ω | ∃ s',
          doBirthDeath (realBdCfg c dt f true view) ops { s with rng := r ω } = .ok ([(j.val, i.val)], s')}).toReal)
      (jumpRate f (fun k => -(b k)) j i) (Set.Ici 0) 0 := by
  have hprob := hid.prob
  have hval : i.val ≠ j.val := fun e => hij (Fin.ext e)
  have hn : 2 ≤ s.particles.length := by have := i.isLt; have := j.isLt; omega
  have hbeta : ∀ dt ω, bdBeta (realBdCfg c dt f true view) { s with rng := r ω } =
      List.ofFn (fun i => ((b i : ℝ) : WithBot ℝ)) := by
    intro dt ω
    unfold bdBeta
    simp only [realBdCfg]
    congr 1
    funext i
    exact hb i
  have hrand : ∀ ω, bdRand ops { s with rng := r ω } = List.ofFn (u ω) := fun ω => hid.random ω
  -- rates after the event
  obtain ⟨g, hg⟩ := rates_at c hbw view f (s.particles.set i (s.particles.get j))
  let B : Fin s.particles.length → Fin s.particles.length → ℝ := fun k l =>
    if l = k then b k else max |b l| |g l|
  have hBk : ∀ k, B k k = b k := fun k => by simp [B]
  have hacc : ∀ dt (x : ℝ) (y : ℝ), (realBdCfg c dt f true view).accept x ((y : ℝ) : WithBot ℝ) = true ↔
      x ≤ 1 - Real.exp (-|y| * dt * f) := by
    intro dt x y
    simp only [realBdCfg, acceptProb]
    exact @decide_eq_true_iff _ (Classical.propDecidable _)
  have hgt : ∀ dt (y : ℝ), (realBdCfg c dt f true view).gt0 ((y : ℝ) : WithBot ℝ) = true ↔ 0 < y := by
    intro dt y
    simp only [realBdCfg, decide_eq_true_eq]
    exact WithBot.coe_pos
  have hlt : ∀ dt (y : ℝ), (realBdCfg c dt f true view).lt0 ((y : ℝ) : WithBot ℝ) = true ↔ y < 0 := by
    intro dt y
    simp only [realBdCfg, decide_eq_true_eq]
    exact WithBot.coe_lt_coe (b := (0 : ℝ))
  -- a single accepted walker
  have hmove : ∀ ps, performMove s.particles (j.val, i.val) = .ok ps → ps = s.particles.set i (s.particles.get j) := by
    intro ps h
    simp only [performMove, List.getElem?_eq_getElem j.isLt, if_pos i.isLt, Except.ok.injEq] at h
    rw [← h]
    rfl
  have hsingle : ∀ dt, 0 ≤ dt → ∀ ω (k o : Fin s.particles.length), k ≠ o →
      u ω ∈ selSet dt f (B k) {k} → loopInt ops s.particles.length (r ω) = partnerInt k o →
      ((0 < b k ∧ k = j ∧ o = i) ∨ (b k < 0 ∧ k = i ∧ o = j)) → ∃ s',
      doBirthDeath (realBdCfg c dt f true view) ops { s with rng := r ω } = .ok ([(j.val, i.val)], s') := by
    intro dt hdt ω k o hko hu hint hcase
    have hvko : k.val ≠ o.val := fun e => hko (Fin.ext e)
    have hev : loopEvent (realBdCfg c dt f true view) ((b k : ℝ) : WithBot ℝ) k.val
        (skipExcluded (loopInt ops s.particles.length (r ω)) k) = (j.val, i.val) := by
      rw [(partnerInt_iff hvko).2 hint]
      unfold loopEvent
      rcases hcase with ⟨h1, rfl, rfl⟩ | ⟨h1, rfl, rfl⟩
      · rw [if_pos ((hgt dt _).2 h1)]
      · rw [if_neg (fun h => absurd ((hgt dt _).1 h) (not_lt.2 h1.le))]
    have hother : ∀ l, l ≠ k → ∀ y : ℝ, |y| ≤ |B k l| →
        (realBdCfg c dt f true view).accept (u ω l) ((y : ℝ) : WithBot ℝ) = false := by
      intro l hl y hy
      have h1 : ¬ (u ω l ≤ 1 - Real.exp (-|B k l| * dt * f)) := fun h =>
        hl (Finset.mem_singleton.1 ((hu l).1 h))
      rw [Bool.eq_false_iff]
      intro h
      refine h1 (((hacc dt _ _).1 h).trans ?_)
      have : Real.exp (-|B k l| * dt * f) ≤ Real.exp (-|y| * dt * f) := by
        refine Real.exp_le_exp.2 ?_
        have := mul_le_mul_of_nonneg_right (mul_le_mul_of_nonneg_right hy hdt) hf
        linarith
      linarith
    have hBl : ∀ l, l ≠ k → |B k l| = max |b l| |g l| := fun l hl => by
      simp only [B, if_neg hl]
      exact abs_of_nonneg (le_max_of_le_left (abs_nonneg _))
    have hk : (realBdCfg c dt f true view).accept (u ω k) ((b k : ℝ) : WithBot ℝ) = true := by
      rw [hacc, ← hBk k]
      exact (hu k).2 (Finset.mem_singleton_self k)
    obtain ⟨s', h'⟩ := recalc_single (c := realBdCfg c dt f true view) rfl hops { s with rng := r ω } k.val
      ((b k : ℝ) : WithBot ℝ) (u ω k) hn k.isLt (by rw [hbeta]; simp) (by rw [hrand]; simp) hk
      (by
        rcases hcase with ⟨h1, _⟩ | ⟨h1, _⟩
        · exact Or.inl ((hgt dt _).2 h1)
        · exact Or.inr ((hlt dt _).2 h1))
      (by
        intro l hl hne
        have hne' : (⟨l, hl⟩ : Fin s.particles.length) ≠ k := fun e => hne (congrArg Fin.val e)
        refine ⟨((b ⟨l, hl⟩ : ℝ) : WithBot ℝ), u ω ⟨l, hl⟩, by rw [hbeta]; simpa using hl, by rw [hrand]; simpa using hl,
          hother _ hne' _ ?_⟩
        rw [hBl _ hne']
        exact le_max_left _ _)
      (by
        intro ps hps l hl hne
        have hne' : (⟨l, hl⟩ : Fin s.particles.length) ≠ k := fun e => hne (congrArg Fin.val e)
        have hps' := hmove ps (by rw [← hev]; exact hps)
        refine ⟨((g l : ℝ) : WithBot ℝ), u ω ⟨l, hl⟩, by rw [hps']; exact hg dt l (by simpa using hl),
          by rw [hrand]; simpa using hl, hother _ hne' _ ?_⟩
        rw [hBl _ hne']
        exact le_max_right _ _)
    refine ⟨s', h'.trans ?_⟩
    have := hev
    simp only at this ⊢
    rw [this]
  -- the set lies between sets with known probability
  let I : Fin s.particles.length → Fin s.particles.length → Set Ω := fun k o =>
    {ω | loopInt ops s.particles.length (r ω) = partnerInt k o}
  let E : ℝ → Set Ω := fun dt => {ω | ∃ s',
    doBirthDeath (realBdCfg c dt f true view) ops { s with rng := r ω } = .ok ([(j.val, i.val)], s')}
  let L1 : ℝ → Set Ω := fun dt => if 0 < b j then u ⁻¹' selSet dt f (B j) {j} ∩ I j i else ∅
  let L2 : ℝ → Set Ω := fun dt => if b i < 0 then u ⁻¹' selSet dt f (B i) {i} ∩ I i j else ∅
  let T : ℝ → Fin s.particles.length → Set (Fin s.particles.length → ℝ) := fun dt k =>
    {v | v k ≤ 1 - Real.exp (-|b k| * dt * f)}
  let U1 : ℝ → Set Ω := fun dt => if 0 < b j then u ⁻¹' T dt j ∩ I j i else ∅
  let U2 : ℝ → Set Ω := fun dt => if b i < 0 then u ⁻¹' T dt i ∩ I i j else ∅
  have hlow : ∀ dt, 0 ≤ dt → L1 dt ∪ L2 dt ⊆ E dt := by
    rintro dt hdt ω (hω | hω)
    · by_cases h0 : 0 < b j
      · simp only [L1, if_pos h0] at hω
        exact hsingle dt hdt ω j i hij.symm hω.1 hω.2 (Or.inl ⟨h0, rfl, rfl⟩)
      · simp only [L1, if_neg h0] at hω
        exact absurd hω (Set.notMem_empty _)
    · by_cases h0 : b i < 0
      · simp only [L2, if_pos h0] at hω
        exact hsingle dt hdt ω i j hij hω.1 hω.2 (Or.inr ⟨h0, rfl, rfl⟩)
      · simp only [L2, if_neg h0] at hω
        exact absurd hω (Set.notMem_empty _)
  have hup : ∀ dt, E dt ⊆ U1 dt ∪ U2 dt := by
    rintro dt ω ⟨s', hω⟩
    have hm : (realBdCfg c dt f true view).recalcProbs = true := rfl
    unfold doBirthDeath at hω
    simp only [hm, if_true] at hω
    unfold doRecalc at hω
    obtain ⟨m, h1, h2⟩ := bind_ok hω
    have h3 : m.events = [(j.val, i.val)] := (Prod.mk.inj (Except.ok.inj h2)).1
    obtain ⟨k, y, x, hk, hy, hx, ha, hs, he⟩ := recalc_first hn _ h1 rfl rfl h3
    have hkn : k < s.particles.length := List.mem_range.1 ((hops.shuffle_perm _ _).mem_iff.1 hk)
    have hy' : y = ((b ⟨k, hkn⟩ : ℝ) : WithBot ℝ) := by
      have h := hbeta dt ω
      simp only [bdBeta] at h
      simp only [h] at hy
      simpa [List.getElem?_ofFn, hkn] using hy.symm
    have hx' : x = u ω ⟨k, hkn⟩ := by
      have h := hrand ω
      simp only [bdRand] at h
      simp only [h] at hx
      simpa [List.getElem?_ofFn, hkn] using hx.symm
    subst hy' hx'
    have ha' := (hacc dt _ _).1 ha
    unfold loopEvent at he
    by_cases h0 : 0 < b ⟨k, hkn⟩
    · rw [if_pos ((hgt dt _).2 h0)] at he
      obtain ⟨h4, h5⟩ := Prod.mk.inj he
      subst h4
      refine Or.inl ?_
      simp only [U1]
      rw [if_pos h0]
      exact ⟨ha', (partnerInt_iff hval.symm).1 h5.symm⟩
    · rw [if_neg (fun h => h0 ((hgt dt _).1 h))] at he
      obtain ⟨h4, h5⟩ := Prod.mk.inj he
      subst h5
      have h6 : b i < 0 := by
        rcases hs with h | h
        · exact absurd ((hgt dt _).1 h) h0
        · exact (hlt dt _).1 h
      refine Or.inr ?_
      simp only [U2]
      rw [if_pos h6]
      exact ⟨ha', (partnerInt_iff hval).1 h4.symm⟩
  have hTm : ∀ dt k, MeasurableSet (T dt k) := fun dt k =>
    measurableSet_le (measurable_pi_apply k) measurable_const
  have hLm : ∀ dt, MeasurableSet (L2 dt) := by
    intro dt
    simp only [L2]
    split
    · exact (hid.measurable (selSet_measurable dt f _ _)).inter (hid.meas_int _)
    · exact MeasurableSet.empty
  let pL : ℝ → ℝ := fun dt => (if 0 < b j then selProb dt f (B j) {j} / (s.particles.length - 1) else 0) +
    (if b i < 0 then selProb dt f (B i) {i} / (s.particles.length - 1) else 0)
  let pU : ℝ → ℝ := fun dt =>
    (if 0 < b j then (1 - Real.exp (-|b j| * dt * f)) / (s.particles.length - 1) else 0) +
    (if b i < 0 then (1 - Real.exp (-|b i| * dt * f)) / (s.particles.length - 1) else 0)
  have hLprob : ∀ dt, 0 ≤ dt → pL dt ≤ (Pr (E dt)).toReal := by
    intro dt hdt
    by_cases hsame : 0 < b j ∧ b i < 0
    · -- both sets, with different walkers accepted
      obtain ⟨h1, h2⟩ := hsame
      have hdis : Disjoint (L1 dt) (L2 dt) := by
        rw [Set.disjoint_left]
        intro ω hω hω'
        simp only [L1, if_pos h1] at hω
        simp only [L2, if_pos h2] at hω'
        have h3 : u ω j ≤ 1 - Real.exp (-|B j j| * dt * f) := (hω.1 j).2 (Finset.mem_singleton_self _)
        have h4 : ¬ u ω j ≤ 1 - Real.exp (-|B i j| * dt * f) := fun h =>
          hij.symm (Finset.mem_singleton.1 ((hω'.1 j).1 h))
        have h5 : |b j| ≤ |B i j| := by
          simp only [B, if_neg hij.symm]
          exact (le_max_left _ _).trans (le_abs_self _)
        rw [hBk] at h3
        have h6 : Real.exp (-|B i j| * dt * f) ≤ Real.exp (-|b j| * dt * f) := by
          refine Real.exp_le_exp.2 ?_
          have := mul_le_mul_of_nonneg_right (mul_le_mul_of_nonneg_right h5 hdt) hf
          linarith
        exact h4 (by linarith)
      have h3 := ENNReal.toReal_mono (measure_ne_top Pr _) (measure_mono (μ := Pr) (hlow dt hdt))
      rw [measure_union hdis (hLm dt), ENNReal.toReal_add (measure_ne_top _ _) (measure_ne_top _ _)] at h3
      simp only [L1, L2, if_pos h1, if_pos h2, I] at h3
      rw [hid.joint_real (selSet_measurable dt f _ _) (selProb_nonneg dt f hdt hf _ _) (selSet_prob dt f hdt hf _ _)
        j i hij.symm, hid.joint_real (selSet_measurable dt f _ _) (selProb_nonneg dt f hdt hf _ _)
        (selSet_prob dt f hdt hf _ _) i j hij] at h3
      simp only [pL, if_pos h1, if_pos h2]
      exact h3
    · by_cases h1 : 0 < b j
      · have h2 : ¬ b i < 0 := fun h => hsame ⟨h1, h⟩
        have h3 := ENNReal.toReal_mono (measure_ne_top Pr _)
          (measure_mono (μ := Pr) (Set.subset_union_left.trans (hlow dt hdt)))
        simp only [L1, if_pos h1, I] at h3
        rw [hid.joint_real (selSet_measurable dt f _ _) (selProb_nonneg dt f hdt hf _ _) (selSet_prob dt f hdt hf _ _)
          j i hij.symm] at h3
        simp only [pL, if_pos h1, if_neg h2, add_zero]
        exact h3
      · by_cases h2 : b i < 0
        · have h3 := ENNReal.toReal_mono (measure_ne_top Pr _)
            (measure_mono (μ := Pr) (Set.subset_union_right.trans (hlow dt hdt)))
          simp only [L2, if_pos h2, I] at h3
          rw [hid.joint_real (selSet_measurable dt f _ _) (selProb_nonneg dt f hdt hf _ _) (selSet_prob dt f hdt hf _ _)
            i j hij] at h3
          simp only [pL, if_neg h1, if_pos h2, zero_add]
          exact h3
        · simp only [pL, if_neg h1, if_neg h2, add_zero]
          exact ENNReal.toReal_nonneg
  have hUprob : ∀ dt, 0 ≤ dt → (Pr (E dt)).toReal ≤ pU dt := by
    intro dt hdt
    have h1 := ENNReal.toReal_mono (measure_ne_top Pr _) (measure_mono (μ := Pr) (hup dt))
    have h2 := ENNReal.toReal_mono (by finiteness) (measure_union_le (μ := Pr) (U1 dt) (U2 dt))
    rw [ENNReal.toReal_add (measure_ne_top _ _) (measure_ne_top _ _)] at h2
    refine (h1.trans h2).trans (le_of_eq ?_)
    have hT : ∀ k, 0 ≤ 1 - Real.exp (-|b k| * dt * f) ∧ unitUniforms s.particles.length (T dt k) =
        ENNReal.ofReal (1 - Real.exp (-|b k| * dt * f)) := fun k => by
      obtain ⟨h3, h4⟩ := acceptProb_mem dt f hdt hf (b k)
      exact ⟨h3, unitUniforms_le k _ h3 h4⟩
    simp only [pU]
    congr 1
    · simp only [U1]
      split
      · exact hid.joint_real (hTm dt j) (hT j).1 (hT j).2 j i hij.symm
      · simp
    · simp only [U2]
      split
      · exact hid.joint_real (hTm dt i) (hT i).1 (hT i).2 i j hij
      · simp
  have hcase : ∀ (q : Prop) [Decidable q] (F : ℝ → ℝ) (a a' : ℝ), HasDerivAt F a 0 → (q → a = a') → (¬ q → a' = 0) →
      HasDerivAt (fun dt => if q then F dt / ((s.particles.length : ℝ) - 1) else 0)
        (a' / (s.particles.length - 1)) 0 := by
    intro q _ F a a' hF h1 h2
    by_cases hq : q
    · simp only [if_pos hq]
      rw [← h1 hq]
      exact hF.div_const _
    · simp only [if_neg hq]
      rw [h2 hq, zero_div]
      exact hasDerivAt_const _ _
  have hj1 : 0 < b j → f * |b j| = f * max (b j) 0 := fun h => by rw [abs_of_pos h, max_eq_left h.le]
  have hj2 : ¬ 0 < b j → f * max (b j) 0 = 0 := fun h => by rw [max_eq_right (not_lt.1 h), mul_zero]
  have hi1 : b i < 0 → f * |b i| = f * max (-(b i)) 0 := fun h => by
    rw [abs_of_neg h, max_eq_left (by linarith)]
  have hi2 : ¬ b i < 0 → f * max (-(b i)) 0 = 0 := fun h => by
    rw [max_eq_right (by linarith [not_lt.1 h]), mul_zero]
  have hdL : HasDerivAt pL (jumpRate f (fun k => -(b k)) j i) 0 := by
    have h1 := hcase (0 < b j) _ _ _ (selProb_deriv f (B j) j) (by rw [hBk]; exact hj1) hj2
    have h2 := hcase (b i < 0) _ _ _ (selProb_deriv f (B i) i) (by rw [hBk]; exact hi1) hi2
    refine (h1.add h2).congr_deriv ?_
    unfold jumpRate
    simp only [neg_neg]
    ring
  have hdU : HasDerivAt pU (jumpRate f (fun k => -(b k)) j i) 0 := by
    have h1 := hcase (0 < b j) _ _ _ (accept_deriv f (b j)) hj1 hj2
    have h2 := hcase (b i < 0) _ _ _ (accept_deriv f (b i)) hi1 hi2
    refine (h1.add h2).congr_deriv ?_
    unfold jumpRate
    simp only [neg_neg]
    ring
  refine deriv_squeeze (l := pL) (h := fun dt => pU dt - pL dt) hdL ((hdU.sub hdL).congr_deriv (sub_self _)) ?_ ?_
  · have h1 : pL 0 = 0 := by simp [pL, selProb_single]
    have h2 : pU 0 = 0 := by simp [pU]
    simp [h1, h2]
  · intro dt hdt
    refine ⟨hLprob dt hdt, ?_⟩
    have := hUprob dt hdt
    simpa using this

/-- C141: with these rates the sum of a function `φ` over the walkers changes on average with the speed
`+ f n/(n-1) Σ β_i φ_i`, the equation of birth-death with time running backwards. -/
theorem event_drift_recalc {n : Nat} (hn : 2 ≤ n) (f : ℝ) (b φ : Fin n → ℝ) (hb : ∑ i, b i = 0) :
    ∑ i, ∑ j, jumpRate f (fun k => -(b k)) j i * (φ j - φ i) = f * n / (n - 1) * ∑ i, b i * φ i := by
  rw [event_drift hn f (fun k => -(b k)) φ (by rw [Finset.sum_neg_distrib, hb, neg_zero])]
  simp only [neg_mul, Finset.sum_neg_distrib, mul_neg, neg_neg]

/-- C141: the sum of the deviations `β` decreases on average in the mode without recalculation and increases with
recalculation, as long as there is a walker with a rate other than zero. -/
theorem event_drift_signs {n : Nat} (hn : 2 ≤ n) (f : ℝ) (hf : 0 < f) (b : Fin n → ℝ) (hb : ∑ i, b i = 0)
    (h0 : ∃ i, b i ≠ 0) :
    ∑ i, ∑ j, jumpRate f b j i * (b j - b i) < 0 ∧
      0 < ∑ i, ∑ j, jumpRate f (fun k => -(b k)) j i * (b j - b i) := by
  rw [event_drift hn f b b hb, event_drift_recalc hn f b b hb]
  have h2 : (2 : ℝ) ≤ n := by exact_mod_cast hn
  have hc : 0 < f * n / (n - 1) := div_pos (mul_pos hf (by linarith)) (by linarith)
  have hs : 0 < ∑ i, b i * b i := by
    obtain ⟨i, hi⟩ := h0
    exact Finset.sum_pos' (fun k _ => mul_self_nonneg _) ⟨i, Finset.mem_univ _, mul_self_pos.2 hi⟩
  exact ⟨by nlinarith [mul_pos hc hs], mul_pos hc hs⟩

/-- C141, negated: the rates of C104 are not those of the mode with recalculated rates, for every pair of walkers of
which the two signs give different rates. -/
theorem event_rate_recalc_false {Ω : Type} [MeasurableSpace Ω] {Pr : Measure Ω} {ops : RngOps R ℝ} (hops : ops.Lawful)
    (c : RateCfg d) (hbw : ∀ k, 0 < c.bw k) (f : ℝ) (hf : 0 ≤ f) (view : P → Walker d) (s : BdState P R) (r : Ω → R)
    (u : Ω → Fin s.particles.length → ℝ) (hid : IdealLoop Pr ops s.particles.length r u)
    (b : Fin s.particles.length → ℝ)
    (hb : ∀ i, calcBetas c (fun i : Fin s.particles.length => (view (s.particles.get i)).pos)
        (fun i => (view (s.particles.get i)).energy) i = (b i : WithBot ℝ))
    (i j : Fin s.particles.length) (hij : i ≠ j) (hne : jumpRate f (fun k => -(b k)) j i ≠ jumpRate f b j i) :
    ¬ HasDerivWithinAt (fun dt => (Pr {ω | ∃ s',
          doBirthDeath (realBdCfg c dt f true view) ops { s with rng := r ω } = .ok ([(j.val, i.val)], s')}).toReal)
      (jumpRate f b j i) (Set.Ici 0) 0 := by
  intro h
  exact hne ((uniqueDiffOn_Ici (0 : ℝ) 0 Set.self_mem_Ici).eq_deriv _
    (event_rate_recalc hops c hbw f hf view s r u hid b hb i j hij) h)

/-- Ideal numbers exist for every number of walkers from two on. -/
theorem idealLoop_exists (n : Nat) (hn : 2 ≤ n) : ∃ (Pr : Measure ((Fin n → ℝ) × Fin (n - 1)))
    (ops : RngOps ((Fin n → ℝ) × Fin (n - 1)) ℝ), ops.Lawful ∧ IdealLoop Pr ops n id Prod.fst := by
  have h0 : 0 < n - 1 := by omega
  have : Nonempty (Fin (n - 1)) := ⟨⟨0, h0⟩⟩
  let ν : Measure (Fin (n - 1)) := (PMF.uniformOfFintype (Fin (n - 1))).toMeasure
  have : IsProbabilityMeasure ν := PMF.toMeasure.isProbabilityMeasure _
  refine ⟨(unitUniforms n).prod ν, ⟨fun m r => (if m = n then List.ofFn r.1 else List.replicate m 0, r),
    fun l r => (l, r), fun m r => (if m = n - 1 then r.2.val else 0, r)⟩, ⟨fun m r => ?_, fun l r => List.Perm.refl _,
    fun m r hm => ?_⟩, measurable_fst, fun ω => by simp, ?_, fun k => ?_, fun A hA k hk => ?_⟩
  · simp only
    split
    · next h => simp [h]
    · simp
  · simp only
    split
    · next h => rw [h]; exact r.2.isLt
    · exact hm
  · rw [Measure.map_fst_prod, measure_univ, one_smul]
  · have h : {ω : (Fin n → ℝ) × Fin (n - 1) | ω.2.val = k} = Prod.snd ⁻¹' {x | x.val = k} := rfl
    simp only [loopInt, id, if_true]
    exact measurable_snd (MeasurableSet.of_discrete (s := {x : Fin (n - 1) | x.val = k}))
  · have hset : (Prod.fst ⁻¹' A ∩ {ω : (Fin n → ℝ) × Fin (n - 1) | ω.2.val = k}) = A ×ˢ {⟨k, hk⟩} := by
      ext ω
      simp [Fin.ext_iff]
    simp only [loopInt, id, if_true]
    refine (congrArg _ hset).trans ?_
    rw [Measure.prod_prod]
    congr 1
    simp only [ν]
    rw [PMF.toMeasure_apply_singleton _ _ (MeasurableSet.singleton _), PMF.uniformOfFintype_apply, Fintype.card_fin]

/-- Two walkers at the same place with energies 2 and 0. -/
def twoWalkers {R : Type} (r : R) : BdState (Walker 1) R := ⟨[⟨0, 2⟩, ⟨0, 0⟩], r, ⟨0, 0, 0, 0⟩⟩

theorem two_rates_recalc (i : Fin 2) : calcBetas ⟨fun _ => 1, 1, .orig, fun _ => 0⟩ (fun _ : Fin 2 => (0 : Fin 1 → ℝ)) ![2, 0] i =
    (((![1, -1] : Fin 2 → ℝ) i : ℝ) : WithBot ℝ) := by
  rw [rates_eq _ (fun _ => one_pos)]
  congr 1
  simp only [centred, rawRate, reduceCtorEq, if_false, div_one, add_zero, Fin.sum_univ_two]
  fin_cases i
  · simp
    ring
  · simp
    ring

/-- Their rates at temperature 1 are 1 and -1. -/
theorem twoWalkers_rates {R : Type} (r : R) (i : Fin (twoWalkers r).particles.length) :
    calcBetas ⟨fun _ => 1, 1, .orig, fun _ => 0⟩
      (fun i : Fin (twoWalkers r).particles.length => ((twoWalkers r).particles.get i).pos)
      (fun i => ((twoWalkers r).particles.get i).energy) i = (((![1, -1] : Fin 2 → ℝ) i : ℝ) : WithBot ℝ) := by
  have hp : (fun i : Fin (twoWalkers r).particles.length => ((twoWalkers r).particles.get i).pos) = fun _ => 0 := by
    funext i
    change Fin 2 at i
    fin_cases i <;> rfl
  have he : (fun i : Fin (twoWalkers r).particles.length => ((twoWalkers r).particles.get i).energy) =
      (![2, 0] : Fin 2 → ℝ) := by
    funext i
    change Fin 2 at i
    fin_cases i <;> rfl
  rw [hp, he]
  exact two_rates_recalc i

/-- C141, negated with a concrete witness: walker 0 should be replaced by a copy of walker 1 with rate `2 f`, but with
recalculated rates this never happens to first order. -/
theorem event_rate_recalc_witness {Ω R : Type} [MeasurableSpace Ω] {Pr : Measure Ω} {ops : RngOps R ℝ}
    (hops : ops.Lawful) (r0 : R) (r : Ω → R) (u : Ω → Fin 2 → ℝ) (hid : IdealLoop Pr ops 2 r u) (f : ℝ) (hf : 0 < f) :
    jumpRate (n := 2) f ![1, -1] 1 0 = 2 * f ∧ jumpRate (n := 2) f ![1, -1] 0 1 = 0 ∧
    HasDerivWithinAt (fun dt => (Pr {ω | ∃ s', doBirthDeath (realBdCfg ⟨fun _ => 1, 1, .orig, fun _ => 0⟩ dt f true id) ops
      { twoWalkers r0 with rng := r ω } = .ok ([(1, 0)], s')}).toReal) 0 (Set.Ici 0) 0 ∧
    HasDerivWithinAt (fun dt => (Pr {ω | ∃ s', doBirthDeath (realBdCfg ⟨fun _ => 1, 1, .orig, fun _ => 0⟩ dt f true id) ops
      { twoWalkers r0 with rng := r ω } = .ok ([(0, 1)], s')}).toReal) (2 * f) (Set.Ici 0) 0 := by
  have h1 := event_rate_recalc hops ⟨fun _ => 1, 1, .orig, fun _ => 0⟩ (fun _ => one_pos) f hf.le id (twoWalkers r0) r u
    hid (![1, -1] : Fin 2 → ℝ) (twoWalkers_rates r0) (0 : Fin 2) (1 : Fin 2) (show (0 : Fin 2) ≠ 1 by decide)
  have h2 := event_rate_recalc hops ⟨fun _ => 1, 1, .orig, fun _ => 0⟩ (fun _ => one_pos) f hf.le id (twoWalkers r0) r u
    hid (![1, -1] : Fin 2 → ℝ) (twoWalkers_rates r0) (1 : Fin 2) (0 : Fin 2) (show (1 : Fin 2) ≠ 0 by decide)
  have e1 : jumpRate (n := 2) f (fun k => -((![1, -1] : Fin 2 → ℝ) k)) 1 0 = 0 := by
    simp [jumpRate]
  have e2 : jumpRate (n := 2) f (fun k => -((![1, -1] : Fin 2 → ℝ) k)) 0 1 = 2 * f := by
    simp [jumpRate]
    ring
  refine ⟨?_, ?_, ?_, ?_⟩
  · simp [jumpRate]
    ring
  · simp [jumpRate]
  · exact h1.congr_deriv e1
  · exact h2.congr_deriv e2

/-- The hypotheses of the last theorem can be met. -/
example : ∃ (Pr : Measure ((Fin 2 → ℝ) × Fin (2 - 1))) (ops : RngOps ((Fin 2 → ℝ) × Fin (2 - 1)) ℝ), ops.Lawful ∧
    IdealLoop Pr ops 2 id Prod.fst := idealLoop_exists 2 le_rfl

end

end Bdld
