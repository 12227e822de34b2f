import Verif.Props.RoundingDemo

/-
Example for C110 and C111, second part: a step of two walkers with birth-death, computed with 53 digits.
-/

namespace Bdld
open Spec

noncomputable section

abbrev springReal : LdCfg ℝ 1 := overdampedCfg (springBox (1 / 2) (-2) 2) 0.01

theorem springDemo_near : NearCfg demoRounding springBnd .overdamped springNum springReal :=
  have h := springNum_near 1e300
  ⟨h.dt, h.half, h.c1, h.noiseFactor, h.mass, h.force, h.bc⟩

abbrev springBd : BdCfg (LdParticle ℝ 1) (WithBot ℝ) ℝ := realBdCfg demoExactRates 0.01 100 false fun p => ⟨p.pos, p.energy⟩

/-- The rates of two walkers: the densities are equal, the energies decide. -/
theorem two_rates (p q : LdParticle ℝ 1) :
    springBd.calcBetas [p, q] = [(((p.energy - q.energy) / 2 : ℝ) : WithBot ℝ), (((q.energy - p.energy) / 2 : ℝ) : WithBot ℝ)] := by
  have hs : kernel (fun _ => 1) (q.pos - p.pos) = kernel (fun _ => 1) (p.pos - q.pos) := by
    rw [← kernel_symm, neg_sub]
  simp only [realBdCfg, List.length_cons, List.length_nil, List.ofFn_succ, List.ofFn_zero,
    rates_eq demoExactRates (fun _ => one_pos), WithBot.coe_inj, List.cons.injEq, and_true]
  constructor <;>
    · simp [centred, rawRate, kde, Fin.sum_univ_two, demoExactRates]
      rw [hs, add_comm (kernel _ (p.pos - q.pos))]
      ring

/-- The exact position after a step without reflection. -/
def springMove (x ξ : ℝ) : ℝ := x + (0.01 * -x + Real.sqrt (2 * 0.01) * ξ)

/-- An exact walker at rest. -/
def springWalker (x : ℝ) : LdParticle ℝ 1 := ⟨fun _ => x, fun _ => 0, 1, 1 / 2 * x * x, fun _ => -x, 0⟩

theorem spring_move (x : ℝ) (noise : Fin 1 → ℝ) (h : |springMove x (noise 0)| ≤ 2) :
    overdampedStep springReal noise (springWalker x) = .ok (springWalker (springMove x (noise 0))) := by
  have e : (fun k : Fin 1 => (springWalker x).pos k + (springReal.dt * (springWalker x).forces k + springReal.noiseFactor * noise k)) =
      fun _ => springMove x (noise 0) := by
    funext k
    rw [Subsingleton.elim k 0]
    simp [springWalker, springMove, overdampedCfg]
  obtain ⟨h1, h2⟩ := abs_le.1 h
  have hb : springReal.pot.applyBc (fun _ => springMove x (noise 0)) (springWalker x).mom =
      .ok (fun _ => springMove x (noise 0), (springWalker x).mom) := by
    change applyReflective _ _ _ = _
    rw [applyReflective_eq _ (by simp [overdampedCfg, springBox])]
    have h1' : ¬ springMove x (noise 0) < -2 := not_lt.2 h1
    have h2' : ¬ (2 : ℝ) < springMove x (noise 0) := not_lt.2 h2
    congr 2
    · funext k
      rw [Subsingleton.elim k 0]
      simp [overdampedCfg, springBox, reflect1, h1', h2']
    · funext k
      rw [Subsingleton.elim k 0]
      simp [overdampedCfg, springBox, reflect1, h1', h2']
  unfold overdampedStep
  rw [e]
  dsimp only
  rw [hb, ok_bind]
  rfl

/-- Random numbers 0.9 and 0.1 for the two walkers. -/
def demoOps (R : Type) : RngOps R Num53 where
  random := fun n r => ((List.range n).map fun i => if i = 0 then ⟨0.9⟩ else ⟨0.1⟩, r)
  shuffle := fun l r => (l, r)
  integers := fun _ r => (0, r)

def demoOpsReal (R : Type) : RngOps R ℝ where
  random := fun n r => ((List.range n).map fun i => if i = 0 then 0.9 else 0.1, r)
  shuffle := fun l r => (l, r)
  integers := fun _ r => (0, r)

theorem demoOps_same (R : Type) : SameNumbers (demoOps R) (demoOpsReal R) demoRounding.val where
  random := by
    intro n r
    simp only [demoOps, demoOpsReal, List.map_map, Prod.mk.injEq, and_true]
    refine List.map_congr_left fun i _ => ?_
    by_cases h : i = 0 <;> simp [h, demoRounding, weaken, rounding53]
  shuffle := fun _ _ => rfl
  integers := fun _ _ => rfl

theorem demoOps_lawful (R : Type) : (demoOpsReal R).Lawful where
  random_length := fun n r => by simp [demoOpsReal]
  shuffle_perm := fun _ _ => List.Perm.refl _
  integers_lt := fun n r h => h

/-- Positions after a step. -/
theorem spring_positions (ξ : ℝ) (h : |ξ| ≤ 0.1) :
    |springMove 0 ξ| ≤ 0.02 ∧ 1.96 ≤ springMove 2 ξ ∧ springMove 2 ξ ≤ 2 := by
  have h1 : Real.sqrt (2 * 0.01) ≤ 0.15 := Real.sqrt_le_iff.2 (by norm_num)
  have h2 := Real.sqrt_nonneg (2 * 0.01)
  have h3 : |Real.sqrt (2 * 0.01) * ξ| ≤ 0.015 := by
    rw [abs_mul, abs_of_nonneg h2]
    refine (mul_le_mul h1 h (abs_nonneg _) (by norm_num)).trans (by norm_num)
  have h4 := abs_le.1 h3
  unfold springMove
  refine ⟨?_, ?_, ?_⟩
  · rw [abs_le]
    constructor <;> norm_num at h4 ⊢ <;> linarith
  · norm_num at h4 ⊢
    linarith
  · norm_num at h4 ⊢
    linarith

/-- The two rates after a step. -/
theorem spring_rates (a b : ℝ) (ha : |a| ≤ 0.02) (hb : 1.96 ≤ b) (hb' : b ≤ 2) :
    0.9 ≤ ((springWalker b).energy - (springWalker a).energy) / 2 ∧ ((springWalker b).energy - (springWalker a).energy) / 2 ≤ 1 := by
  simp only [springWalker]
  have := abs_le.1 ha
  constructor
  · nlinarith
  · nlinarith [mul_nonneg (sub_nonneg.2 hb') (sub_nonneg.2 hb), sq_nonneg a]

theorem spring_accept (x : ℝ) (h1 : 0.9 ≤ |x|) (h2 : |x| ≤ 1) :
    0.5 ≤ acceptProb 0.01 100 (x : WithBot ℝ) ∧ acceptProb 0.01 100 (x : WithBot ℝ) ≤ 0.7 := by
  have e : acceptProb 0.01 100 (x : WithBot ℝ) = 1 - Real.exp (-|x|) := by
    change 1 - Real.exp (-|x| * 0.01 * 100) = _
    norm_num [mul_assoc]
  rw [e, Real.exp_neg]
  have g1 : 2.7 ≤ Real.exp 1 := by
    have := Real.exp_one_gt_d9
    linarith
  have g2 : Real.exp |x| ≤ Real.exp 1 := Real.exp_le_exp.2 h2
  have g3 : 2 ≤ Real.exp |x| := by
    have := Real.quadratic_le_exp_of_nonneg (abs_nonneg x)
    nlinarith
  have g4 := Real.exp_one_lt_d9
  constructor
  · have : (Real.exp |x|)⁻¹ ≤ 2⁻¹ := inv_anti₀ (by norm_num) g3
    linarith
  · have : (2.8 : ℝ)⁻¹ ≤ (Real.exp |x|)⁻¹ := inv_anti₀ (Real.exp_pos _) (by linarith)
    norm_num at this ⊢
    linarith

/-- Exact birth-death of the two walkers: the second one is replaced by the first one. -/
theorem spring_bdStep {R : Type} (a b : ℝ) (ha : |a| ≤ 0.02) (hb : 1.96 ≤ b) (hb' : b ≤ 2) (r : R) (st : BdStats) :
    doBirthDeath springBd (demoOpsReal R) ⟨[springWalker a, springWalker b], r, st⟩ =
      .ok ([(0, 1)], ⟨[springWalker a, springWalker a], r, ⟨st.dupCount, st.dupAttempts + 1, st.killCount + 1, st.killAttempts + 1⟩⟩) := by
  obtain ⟨h1, h2⟩ := spring_rates a b ha hb hb'
  have hr := two_rates (springWalker a) (springWalker b)
  have e : ((springWalker a).energy - (springWalker b).energy) / 2 = -(((springWalker b).energy - (springWalker a).energy) / 2) := by ring
  rw [e] at hr
  generalize ((springWalker b).energy - (springWalker a).energy) / 2 = x at h1 h2 hr
  have hx : |x| = x := abs_of_pos (by linarith)
  have p1 := spring_accept x (by rw [hx]; exact h1) (by rw [hx]; exact h2)
  have p2 := spring_accept (-x) (by rw [abs_neg, hx]; exact h1) (by rw [abs_neg, hx]; exact h2)
  have g1 : springBd.gt0 ((x : ℝ) : WithBot ℝ) = true := by
    simp only [realBdCfg]
    rw [@decide_eq_true_iff _ (Classical.propDecidable _)]
    exact WithBot.coe_lt_coe.2 (by linarith)
  have g2 : springBd.gt0 ((-x : ℝ) : WithBot ℝ) = false := by
    simp only [realBdCfg]
    rw [@decide_eq_false_iff_not _ (Classical.propDecidable _)]
    exact not_lt.2 (WithBot.coe_le_coe.2 (by linarith))
  have a1 : springBd.accept 0.1 ((x : ℝ) : WithBot ℝ) = true := by
    simp only [realBdCfg]
    rw [@decide_eq_true_iff _ (Classical.propDecidable _)]
    linarith
  have a2 : springBd.accept 0.9 ((-x : ℝ) : WithBot ℝ) = false := by
    simp only [realBdCfg]
    rw [@decide_eq_false_iff_not _ (Classical.propDecidable _)]
    linarith
  unfold doBirthDeath
  dsimp only
  rw [hr]
  generalize hbd : springBd = c at *
  have hm : c.recalcProbs = false := by rw [← hbd]; rfl
  rw [hm]
  simp [doBulk, demoOpsReal, acceptedIndices, List.range_succ, a1, a2, bulkStep, randomOther, skipExcluded, g1, g2, performMoves]
  rfl

/-- **C110, C111**, example. Two walkers start in the middle and at the wall. For all small random forces, the step computed with
53 digits does exactly the birth-death event of the exact step (the walker in the middle replaces the other one), and the positions
are exact up to 1e-12. -/
theorem spring_birthDeath {R : Type} (normal : NormalOps R Num53 1) (hn : ∀ r k, |((normal r).1 k).val| ≤ 0.1) (r1 r2 : R) :
    ∃ y y', walkersRun .overdamped springNum normal (floatBdCfg fns53 demoRates false (fun p => p.pos) (fun p => p.energy)) (demoOps R)
        1 1 ⟨(springStart r1 [0, 2]).particles, r1, r2, ⟨0, 0, 0, 0⟩⟩ = .ok y ∧
      walkersRun .overdamped springReal (valNormal demoRounding normal) springBd (demoOpsReal R) 1 1
        ⟨[springWalker 0, springWalker 2], r1, r2, ⟨0, 0, 0, 0⟩⟩ = .ok y' ∧
      y.1 = [[(0, 1)]] ∧ y'.1 = [[(0, 1)]] ∧ y.2.stats = ⟨0, 1, 1, 1⟩ ∧
      List.Forall₂ (fun p q => |(p.pos 0).val - q.pos 0| ≤ 1e-12) y.2.particles y'.2.particles := by
  obtain ⟨a1, -, -⟩ := spring_positions _ (hn r1 0)
  obtain ⟨-, b1, b2⟩ := spring_positions _ (hn (normal r1).2 0)
  set a := springMove 0 ((normal r1).1 0).val with ha
  set b := springMove 2 ((normal (normal r1).2).1 0).val with hb
  have ha2 : |a| ≤ 2 := a1.trans (by norm_num)
  have hb2 : |b| ≤ 2 := abs_le.2 ⟨by linarith, b2⟩
  have hld : LdState.run .overdamped springReal (valNormal demoRounding normal) ⟨[springWalker 0, springWalker 2], r1⟩ =
      .ok ⟨[springWalker a, springWalker b], (normal (normal r1).2).2⟩ := by
    have e1 := spring_move 0 (fun k => ((normal r1).1 k).val) ha2
    have e2 := spring_move 2 (fun k => ((normal (normal r1).2).1 k).val) hb2
    have d1 : particleStep .overdamped springReal (valNormal demoRounding normal) (springWalker 0) r1 =
        .ok (springWalker a, (normal r1).2) := by
      simp only [particleStep]
      exact congrArg (fun z => z >>= fun p' => pure (p', (normal r1).2)) e1
    have d2 : particleStep .overdamped springReal (valNormal demoRounding normal) (springWalker 2) (normal r1).2 =
        .ok (springWalker b, (normal (normal r1).2).2) := by
      simp only [particleStep]
      exact congrArg (fun z => z >>= fun p' => pure (p', (normal (normal r1).2).2)) e2
    simp only [LdState.run, ldLoop, d1, d2, ok_bind, pure_eq_ok]
  have hrun : walkersRun .overdamped springReal (valNormal demoRounding normal) springBd (demoOpsReal R) 1 1
        ⟨[springWalker 0, springWalker 2], r1, r2, ⟨0, 0, 0, 0⟩⟩ =
      .ok ([[(0, 1)]], ⟨[springWalker a, springWalker a], (normal (normal r1).2).2, r2, ⟨0, 1, 1, 1⟩⟩) := by
    simp only [walkersRun, walkersStep, ok_bind, hld, if_pos (one_dvd _), spring_bdStep a b a1 b1 b2, pure_eq_ok]
    rfl
  have hstep : ((springBnd.next .overdamped 1e-15 0)^[1] (0, 0)).1 ≤ 1e-13 := by
    rw [Function.iterate_one]
    change (springBnd.euler 1e-15 0 0).err ≤ _
    unfold LdBnd.euler LdBnd.force springBnd Bnd.add Bnd.mul Bnd.exact
    norm_num
  have h0 : List.Forall₂ (NearWalker demoRounding springBnd .overdamped springNum springReal (0, 0))
      (springStart r1 [0, 2]).particles [springWalker 0, springWalker 2] := by
    refine .cons ?_ (.cons ?_ .nil)
    · exact ⟨fun k => ⟨trivial, by simp [demoRounding, weaken, rounding53, springWalker], by simp [springWalker, springBnd]⟩,
        (fun h => by cases h), ⟨trivial, rfl, rfl⟩,
        ⟨trivial, by simp [demoRounding, weaken, rounding53, springBnd, Bnd.exact, springWalker],
          by simp [springBnd, Bnd.exact, springWalker]⟩, rfl, rfl⟩
    · exact ⟨fun k => ⟨trivial, by simp [demoRounding, weaken, rounding53, springWalker], by simp [springWalker, springBnd]⟩,
        (fun h => by cases h), ⟨trivial, rfl, rfl⟩,
        ⟨trivial, by simp [demoRounding, weaken, rounding53, springBnd, Bnd.exact, springWalker],
          by simp [springBnd, Bnd.exact, springWalker]⟩, rfl, rfl⟩
  have hE : ∀ m ≤ 1, ((springBnd.next .overdamped demoRounding.u demoRounding.η)^[m] (0, 0)).1 ≤ springBnd.E ∧
      ((springBnd.next .overdamped demoRounding.u demoRounding.η)^[m] (0, 0)).1 ≤ 1e-12 := by
    intro m hm
    rcases Nat.le_one_iff_eq_zero_or_eq_one.1 hm with rfl | rfl
    · simp [springBnd]
      norm_num
    · exact ⟨hstep.trans (by norm_num [springBnd]), hstep.trans (by norm_num)⟩
  have hfit : ∀ m < 1, springBnd.fits .overdamped demoRounding.u demoRounding.η demoRounding.Ω
      ((springBnd.next .overdamped demoRounding.u demoRounding.η)^[m] (0, 0)) := by
    intro m hm
    rw [Nat.lt_one_iff.1 hm]
    change springBnd.eulerFits 1e-15 0 1e300 0
    unfold LdBnd.eulerFits LdBnd.force springBnd Bnd.add Bnd.mul Bnd.mulTop Bnd.addTop Bnd.exact
    norm_num
  have hene : ∀ p q, (∀ k, Near demoRounding ⟨1e-12, demoBnd.X⟩ (p k) (q k)) →
      Near demoRounding (demoBnd.energy 1e-12) (springNum.pot.evaluate p).1 (springReal.pot.evaluate q).1 := by
    intro p q h
    have hh : Near demoRounding (Bnd.exact (1 / 2)) (⟨1 / 2⟩ : Num53) (1 / 2) :=
      ⟨trivial, by simp [demoRounding, weaken, rounding53, Bnd.exact], by simp [Bnd.exact]⟩
    refine near_mul (near_mul hh (h 0) ?_) (h 0) ?_
    · change Bnd.mulTop (Bnd.exact (1 / 2)) ⟨1e-12, 2⟩ ≤ 1e300
      unfold Bnd.mulTop Bnd.exact
      norm_num
    · change Bnd.mulTop (Bnd.mul 1e-15 0 (Bnd.exact (1 / 2)) ⟨1e-12, 2⟩) ⟨1e-12, 2⟩ ≤ 1e300
      unfold Bnd.mulTop Bnd.mul Bnd.exact
      norm_num
  have hin : ∀ m < 1, ∀ t z, walkersRun .overdamped springReal (valNormal demoRounding normal) springBd (demoOpsReal R) 1 m
        ⟨[springWalker 0, springWalker 2], r1, r2, ⟨0, 0, 0, 0⟩⟩ = .ok t →
      LdState.run .overdamped springReal (valNormal demoRounding normal) ⟨t.2.particles, t.2.ldRng⟩ = .ok z →
        (∀ q ∈ z.particles, Inside springBnd .overdamped q) ∧
        (1 ∣ m + 1 → ∀ w, doBirthDeath springBd (demoOpsReal R) ⟨z.particles, t.2.bdRng, t.2.stats⟩ = .ok w →
          ∀ qs, (qs = z.particles ∨ false = true ∧ Visited z.particles w.1 qs) →
            Clear (demoBnd.rate 1e-15 0 1e-15 1e-15 1 2 .orig 1e-12).err (demoBnd.prob 1e-15 0 1e-15 1e-15 1 2 .orig 1e-12).err 0.01 100
              (springBd.calcBetas qs) ((demoOpsReal R).random z.particles.length t.2.bdRng).1) := by
    intro m hm t z ht hz
    rw [Nat.lt_one_iff.1 hm] at ht
    cases ht
    rw [hld] at hz
    cases hz
    refine ⟨?_, ?_⟩
    · intro q hq
      rcases List.mem_pair.1 hq with rfl | rfl
      · exact ⟨fun _ => ha2, fun h => by cases h⟩
      · exact ⟨fun _ => hb2, fun h => by cases h⟩
    · intro _ w _ qs hqs
      obtain rfl : qs = [springWalker a, springWalker b] := hqs.resolve_right (fun h => by cases h.1)
      obtain ⟨k1, k2⟩ := demo_errors
      obtain ⟨h1, h2⟩ := spring_rates a b a1 b1 b2
      have hr := two_rates (springWalker a) (springWalker b)
      have e : ((springWalker a).energy - (springWalker b).energy) / 2 =
        -(((springWalker b).energy - (springWalker a).energy) / 2) := by ring
      rw [e] at hr
      rw [hr]
      generalize ((springWalker b).energy - (springWalker a).energy) / 2 = x at h1 h2 ⊢
      have hx : |x| = x := abs_of_pos (by linarith)
      have p1 := spring_accept x (by rw [hx]; exact h1) (by rw [hx]; exact h2)
      have p2 := spring_accept (-x) (by rw [abs_neg, hx]; exact h1) (by rw [abs_neg, hx]; exact h2)
      generalize (demoBnd.rate 1e-15 0 1e-15 1e-15 1 2 .orig 1e-12).err = κ at k1 ⊢
      generalize (demoBnd.prob 1e-15 0 1e-15 1e-15 1 2 .orig 1e-12).err = π at k2 ⊢
      norm_num at k1 k2
      refine ⟨?_, ?_⟩
      · intro β hβ y hy
        rcases List.mem_pair.1 hβ with rfl | rfl
        · rw [← WithBot.coe_inj.1 hy, abs_neg, hx]
          linarith
        · rw [← WithBot.coe_inj.1 hy, hx]
          linarith
      · intro i β r hβ hr
        rcases i with _ | _ | i
        · cases hβ
          obtain rfl : (0.9 : ℝ) = r := by simpa [demoOpsReal] using hr
          refine lt_of_lt_of_le ?_ (le_abs_self _)
          linarith
        · cases hβ
          obtain rfl : (0.1 : ℝ) = r := by simpa [demoOpsReal] using hr
          refine lt_of_lt_of_le ?_ (neg_le_abs _)
          linarith
        · cases hβ
  obtain ⟨y, g1, g2, -, -, g5, g6⟩ := float_run_rounding fns53_contract springDemo_near normal (demoOps_same R) (demoOps_lawful R)
    (fun _ _ _ _ => trivial) (B := demoBnd) (c := demoRates) (rc := demoExactRates) (dt := 0.01) (rateFac := 100) (ε := 1e-12) false 1
    ⟨(springStart r1 [0, 2]).particles, r1, r2, ⟨0, 0, 0, 0⟩⟩ ⟨[springWalker 0, springWalker 2], r1, r2, ⟨0, 0, 0, 0⟩⟩
    demo_nearRates (demo_fits _ (by norm_num [demoRounding, weaken, rounding53])) rfl hene rfl rfl rfl
    (fun j k => ⟨trivial, (hn _ k).trans (by norm_num [springBnd, Bnd.exact])⟩) le_rfl (0, 0) h0 1 _ hrun hE hfit hin
  refine ⟨y, _, g1, hrun, g2, rfl, g5, g6.imp fun p q h => ((h 0).1).trans (hstep.trans (by norm_num))⟩

end

end Bdld
