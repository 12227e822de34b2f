import Verif.Props.Rates
import Verif.Props.Distribution

/-
C102: birth-death does nothing at equilibrium.
-/

namespace Bdld

open MeasureTheory Spec

variable {P B U R : Type} {d : Nat}

theorem accepted_none (c : BdCfg P B U) (rand : List U) (beta : List B)
    (h : ∀ u ∈ rand, ∀ b ∈ beta, c.accept u b = false) : acceptedIndices c rand beta = [] := by
  refine List.eq_nil_iff_forall_not_mem.2 (fun i hi => ?_)
  obtain ⟨u, b, hu, hb, ha⟩ := (mem_acceptedIndices c rand beta i).1 hi
  rw [h u (List.mem_of_getElem? hu) b (List.mem_of_getElem? hb)] at ha
  cases ha

private theorem recalc_quiet (c : BdCfg P B U) (ops : RngOps R U) (n : Nat) (rand : List U) (l : RecalcLoop P B R)
    (h : ∀ u ∈ rand, ∀ b ∈ l.beta, c.accept u b = false) (hr : rand.length = n) (hb : l.beta.length = n) :
    ∀ (order : List Nat), (∀ i ∈ order, i < n) → ∀ st, ∃ st',
      order.foldlM (recalcStep c ops n rand) { l with stats := st } = .ok { l with stats := st' } := by
  intro order
  induction order with
  | nil => intro _ st; exact ⟨st, rfl⟩
  | cons i order ih =>
    intro hlt st
    have hi := hlt i (by simp)
    obtain ⟨b, hbi⟩ : ∃ b, l.beta[i]? = some b := ⟨_, List.getElem?_eq_getElem (by omega)⟩
    obtain ⟨u, hui⟩ : ∃ u, rand[i]? = some u := ⟨_, List.getElem?_eq_getElem (by omega)⟩
    have hstep : recalcStep c ops n rand { l with stats := st } i =
        .ok { l with stats := recalcAttempts c b st } := by
      unfold recalcStep
      simp [hbi, hui, h u (List.mem_of_getElem? hui) b (List.mem_of_getElem? hbi)]
    obtain ⟨st', h'⟩ := ih (fun j hj => hlt j (by simp [hj])) (recalcAttempts c b st)
    exact ⟨st', by rw [List.foldlM_cons, hstep, ok_bind]; exact h'⟩

/-- A step in which no random number is accepted for any rate leaves the walkers and the numbers of successful events
as they are and reports no event (both modes). -/
theorem bd_quiet {c : BdCfg P B U} (hc : c.Lawful) {ops : RngOps R U} (hops : ops.Lawful) (s : BdState P R)
    (h : ∀ u ∈ bdRand ops s, ∀ b ∈ bdBeta c s, c.accept u b = false) :
    ∃ s', doBirthDeath c ops s = .ok ([], s') ∧ s'.particles = s.particles := by
  unfold doBirthDeath
  simp only
  cases hm : c.recalcProbs with
  | false =>
    simp only [Bool.false_eq_true, if_false]
    unfold doBulk
    have h0 := accepted_none c _ _ h
    simp only [bdRand, bdBeta] at h0
    have h1 : (ops.shuffle (acceptedIndices c (ops.random s.particles.length s.rng).1 (c.calcBetas s.particles))
        (ops.random s.particles.length s.rng).2).1 = [] := by
      rw [h0]
      exact List.perm_nil.1 (hops.shuffle_perm _ _)
    simp only [h1, List.foldlM_nil, pure_eq_ok, ok_bind, List.zip_nil_right, performMoves]
    exact ⟨_, rfl, rfl⟩
  | true =>
    simp only [if_true]
    unfold doRecalc
    obtain ⟨st', h'⟩ := recalc_quiet c ops s.particles.length (bdRand ops s)
      ⟨s.particles, bdBeta c s, (ops.shuffle (List.range s.particles.length)
        (ops.random s.particles.length s.rng).2).2, s.stats, none, []⟩ h (hops.random_length _ _) (hc _)
      (ops.shuffle (List.range s.particles.length) (ops.random s.particles.length s.rng).2).1
      (fun i hi => List.mem_range.1 ((hops.shuffle_perm _ _).mem_iff.1 hi)) s.stats
    simp only [bdRand, bdBeta] at h'
    simp only [h', ok_bind, pure_eq_ok]
    exact ⟨_, rfl, rfl⟩

/-- All walkers see the same ratio of the estimated density and the Boltzmann factor: `ρ(x) = a exp(-U(x)/kT)` at the
walkers. -/
def AtEquilibrium {n : Nat} (bw : Fin d → ℝ) (kt : ℝ) (pos : Fin n → Fin d → ℝ) (ene : Fin n → ℝ) : Prop :=
  ∃ a, 0 < a ∧ ∀ i, kde bw pos (pos i) = a * Real.exp (-(ene i) / kt)

/-- C102: the rates of the original variant vanish exactly at equilibrium. -/
theorem rates_zero_iff {n : Nat} (c : RateCfg d) (hbw : ∀ k, 0 < c.bw k) (hv : c.variant = .orig)
    (pos : Fin n → Fin d → ℝ) (ene : Fin n → ℝ) :
    (∀ i, calcBetas c pos ene i = ((0 : ℝ) : WithBot ℝ)) ↔ AtEquilibrium c.bw c.kt pos ene := by
  have hpos : ∀ i, 0 < kde c.bw pos (pos i) := fun i => by
    have h := (density_lower_bound pos c.bw hbw i).2
    rwa [(density_agree pos c.bw).2] at h
  have hraw : ∀ i, rawRate c pos ene i = Real.log (kde c.bw pos (pos i)) + ene i / c.kt := fun i => by
    unfold rawRate
    rw [hv, if_neg (by decide)]
  have hr : ∀ i, calcBetas c pos ene i = ((centred (rawRate c pos ene) i : ℝ) : WithBot ℝ) := fun i => by
    rw [rates_eq c hbw, hv, if_neg (by decide), add_zero]
  simp only [hr, WithBot.coe_inj]
  constructor
  · intro h
    refine ⟨Real.exp ((∑ j, rawRate c pos ene j) / n), Real.exp_pos _, fun i => ?_⟩
    have h1 := h i
    unfold centred at h1
    rw [← Real.exp_add, ← sub_eq_zero.1 h1, hraw, neg_div, add_neg_cancel_right, Real.exp_log (hpos i)]
  · rintro ⟨a, ha, h⟩ i
    have h1 : ∀ j, rawRate c pos ene j = Real.log a := fun j => by
      rw [hraw, h j, Real.log_mul ha.ne' (Real.exp_pos _).ne', Real.log_exp]
      ring
    unfold centred
    have hn : (n : ℝ) ≠ 0 := by have := i.pos; exact_mod_cast this.ne'
    simp only [h1, Finset.sum_const, Finset.card_univ, Fintype.card_fin, nsmul_eq_mul]
    field_simp
    ring

private theorem beta_zero {c : RateCfg d} (hbw : ∀ k, 0 < c.bw k) (hv : c.variant = .orig) {dt f : ℝ} {rc : Bool}
    {view : P → Walker d} {s : BdState P R}
    (heq : AtEquilibrium c.bw c.kt (fun i : Fin s.particles.length => (view (s.particles.get i)).pos)
      (fun i => (view (s.particles.get i)).energy)) :
    ∀ b ∈ bdBeta (realBdCfg c dt f rc view) s, b = ((0 : ℝ) : WithBot ℝ) := by
  intro b hb
  unfold bdBeta at hb
  simp only [realBdCfg, List.mem_ofFn] at hb
  obtain ⟨i, rfl⟩ := hb
  exact (rates_zero_iff c hbw hv _ _).2 heq i

/-- C102: at equilibrium a step of birth-death (original variant, both modes) with positive random numbers changes no
walker and reports no event. -/
theorem bd_equilibrium (c : RateCfg d) (hbw : ∀ k, 0 < c.bw k) (hv : c.variant = .orig) (dt f : ℝ) (rc : Bool)
    (view : P → Walker d) {ops : RngOps R ℝ} (hops : ops.Lawful) (s : BdState P R)
    (heq : AtEquilibrium c.bw c.kt (fun i : Fin s.particles.length => (view (s.particles.get i)).pos)
      (fun i => (view (s.particles.get i)).energy))
    (hu : ∀ u ∈ bdRand ops s, 0 < u) :
    ∃ s', doBirthDeath (realBdCfg c dt f rc view) ops s = .ok ([], s') ∧ s'.particles = s.particles := by
  refine bd_quiet (realBdCfg_lawful c dt f rc view) hops s (fun u hur b hb => ?_)
  rw [beta_zero hbw hv heq b hb]
  simp only [realBdCfg, decide_eq_false_iff_not]
  rw [show acceptProb dt f ((0 : ℝ) : WithBot ℝ) = 0 by simp [acceptProb]]
  exact not_le.2 (hu u hur)

/-- C102: away from equilibrium some walker has a positive probability to be selected. -/
theorem bd_not_equilibrium {n : Nat} (c : RateCfg d) (hbw : ∀ k, 0 < c.bw k) (hv : c.variant = .orig) (dt f : ℝ)
    (hdt : 0 < dt) (hf : 0 < f) (pos : Fin n → Fin d → ℝ) (ene : Fin n → ℝ)
    (h : ¬ AtEquilibrium c.bw c.kt pos ene) :
    ∃ i, 0 < unitUniform {u | u ≤ acceptProb dt f (calcBetas c pos ene i)} := by
  rw [← rates_zero_iff c hbw hv, not_forall] at h
  obtain ⟨i, hi⟩ := h
  refine ⟨i, ?_⟩
  obtain ⟨h0, h1⟩ := acceptProb_mem dt f hdt.le hf.le (calcBetas c pos ene i)
  rw [unitUniform_le _ h0 h1, ENNReal.ofReal_pos]
  obtain ⟨b, hb, _⟩ := rates_sum c hbw pos ene
  rw [hb i] at hi ⊢
  obtain ⟨g0, _, g2, _⟩ := acceptProb_spec dt f hdt hf (b i)
  exact lt_of_le_of_ne g0 (fun e => hi (by rw [g2.1 e.symm]))

/-- Equilibrium exists: two walkers with the same energy. -/
theorem equilibrium_two (bw : Fin 1 → ℝ) (hbw : ∀ k, 0 < bw k) (kt e : ℝ) (x y : Fin 1 → ℝ) :
    AtEquilibrium bw kt ![x, y] ![e, e] := by
  have hp : 0 < kde bw ![x, y] x := by
    have h := (density_lower_bound ![x, y] bw hbw 0).2
    rwa [(density_agree ![x, y] bw).2] at h
  refine ⟨kde bw ![x, y] x * Real.exp (e / kt), mul_pos hp (Real.exp_pos _), fun i => ?_⟩
  have hsame : kde bw ![x, y] y = kde bw ![x, y] x := by
    have hs : kernel bw (y - x) = kernel bw (x - y) := by
      simp only [kernel, normalPdf, Pi.sub_apply]
      refine Finset.prod_congr rfl (fun k _ => ?_)
      rw [show (y k - x k) ^ 2 = (x k - y k) ^ 2 by ring]
    unfold kde
    simp only [Fin.sum_univ_two, Matrix.cons_val_zero, Matrix.cons_val_one, sub_self, hs]
    rw [add_comm]
  have hexp : Real.exp (e / kt) * Real.exp (-e / kt) = 1 := by
    rw [← Real.exp_add, neg_div, add_neg_cancel, Real.exp_zero]
  fin_cases i <;> simp [mul_assoc, hexp, hsame]

/-- Two walkers with different energies are not at equilibrium. -/
example : ¬ AtEquilibrium (fun _ : Fin 1 => 1) 1 ![fun _ => 0, fun _ => 1] ![0, 1] := by
  have hb : ∀ k : Fin 1, (0 : ℝ) < (fun _ : Fin 1 => (1 : ℝ)) k := fun _ => one_pos
  obtain ⟨a, ha, h⟩ := equilibrium_two (fun _ => 1) hb 1 0 (fun _ => 0) (fun _ => 1)
  rintro ⟨a', ha', h'⟩
  have e0 := (h 0).symm.trans (h' 0)
  have e1 := (h 1).symm.trans (h' 1)
  simp only [Matrix.cons_val_zero, Matrix.cons_val_one, neg_zero, zero_div, Real.exp_zero, mul_one] at e0 e1
  rw [e0] at e1
  have : Real.exp (-1 / 1 : ℝ) < 1 := Real.exp_lt_one_iff.2 (by norm_num)
  nlinarith

end Bdld
