import Verif.Props.Rates
import Verif.Props.BirthDeath
import Verif.Props.LangevinReal
import Mathlib.MeasureTheory.Constructions.Pi
import Mathlib.MeasureTheory.Measure.Lebesgue.Basic
import Mathlib.Probability.Distributions.Uniform

/-
C101: distribution of the events of birth-death for ideal random numbers. C41: distribution of the displacement in
overdamped dynamics (in addition to C41).
-/

namespace Bdld

open MeasureTheory ProbabilityTheory Spec

noncomputable section

/-- Law of `rng.random()`: uniform on [0, 1). -/
def unitUniform : Measure ℝ := volume.restrict (Set.Ico 0 1)

instance : IsProbabilityMeasure unitUniform := ⟨by simp [unitUniform]⟩

/-- Law of `rng.random(n)`: independent numbers. -/
def unitUniforms (n : Nat) : Measure (Fin n → ℝ) := Measure.pi (fun _ => unitUniform)

instance (n : Nat) : IsProbabilityMeasure (unitUniforms n) := by unfold unitUniforms; infer_instance

theorem unitUniform_le (p : ℝ) (h0 : 0 ≤ p) (h1 : p ≤ 1) : unitUniform {u | u ≤ p} = ENNReal.ofReal p := by
  unfold unitUniform
  rw [Measure.restrict_apply (show MeasurableSet {u : ℝ | u ≤ p} from measurableSet_Iic)]
  rcases lt_or_eq_of_le h1 with h | rfl
  · have : {u : ℝ | u ≤ p} ∩ Set.Ico 0 1 = Set.Icc 0 p := by
      ext u
      simp only [Set.mem_inter_iff, Set.mem_ofPred_eq, Set.mem_Ico, Set.mem_Icc]
      constructor
      · rintro ⟨a, b, c⟩; exact ⟨b, a⟩
      · rintro ⟨a, b⟩; exact ⟨b, a, lt_of_le_of_lt b h⟩
    rw [this, Real.volume_Icc, sub_zero]
  · have : {u : ℝ | u ≤ 1} ∩ Set.Ico 0 1 = Set.Ico 0 1 := by
      ext u
      simp only [Set.mem_inter_iff, Set.mem_ofPred_eq, Set.mem_Ico]
      constructor
      · rintro ⟨a, b, c⟩; exact ⟨b, c⟩
      · rintro ⟨a, b⟩; exact ⟨b.le, a, b⟩
    rw [this, Real.volume_Ico, sub_zero]

theorem unitUniform_not_le (p : ℝ) (h0 : 0 ≤ p) (h1 : p ≤ 1) : unitUniform {u | ¬ u ≤ p} = ENNReal.ofReal (1 - p) := by
  have h := prob_compl_eq_one_sub (μ := unitUniform) (s := {u : ℝ | u ≤ p}) measurableSet_Iic
  rw [unitUniform_le p h0 h1, ← ENNReal.ofReal_one, ← ENNReal.ofReal_sub _ h0] at h
  exact h

theorem acceptProb_mem (dt f : ℝ) (hdt : 0 ≤ dt) (hf : 0 ≤ f) (b : WithBot ℝ) :
    0 ≤ acceptProb dt f b ∧ acceptProb dt f b ≤ 1 := by
  unfold acceptProb
  cases b with
  | bot => simp
  | coe b =>
    simp only
    have h1 : -|b| * dt * f ≤ 0 := by
      have := mul_nonneg (mul_nonneg (abs_nonneg b) hdt) hf
      nlinarith
    have := Real.exp_le_one_iff.2 h1
    have := Real.exp_pos (-|b| * dt * f)
    constructor <;> linarith

variable {P R : Type} {d : Nat}

theorem accepted_iff {B : Type} (c : BdCfg P B ℝ) {n : Nat} (u : Fin n → ℝ) (beta : Fin n → B) (S : Finset (Fin n)) :
    acceptedIndices c (List.ofFn u) (List.ofFn beta) = ((List.finRange n).filter (fun i => decide (i ∈ S))).map Fin.val ↔
      ∀ i, c.accept (u i) (beta i) = decide (i ∈ S) := by
  have h : acceptedIndices c (List.ofFn u) (List.ofFn beta) =
      ((List.finRange n).filter (fun i => c.accept (u i) (beta i))).map Fin.val := by
    unfold acceptedIndices
    rw [List.length_ofFn, ← List.map_coe_finRange_eq_range, List.filter_map]
    congr 1
    apply List.filter_congr
    intro i _
    simp
  rw [h]
  constructor
  · intro h i
    have h := List.map_injective_iff.2 Fin.val_injective h
    have h1 : i ∈ (List.finRange n).filter (fun i => c.accept (u i) (beta i)) ↔
      i ∈ (List.finRange n).filter (fun i => decide (i ∈ S)) := by rw [h]
    simp only [List.mem_filter, List.mem_finRange, true_and] at h1
    exact Bool.eq_iff_iff.2 h1
  · intro h
    congr 1
    apply List.filter_congr
    intro i _
    exact h i

/-- Walkers are selected independently of each other, walker `i` with the probability that belongs to its rate. -/
theorem selection_law {n : Nat} (c : RateCfg d) (dt f : ℝ) (hdt : 0 ≤ dt) (hf : 0 ≤ f) (rc : Bool)
    (view : P → Walker d) (beta : Fin n → WithBot ℝ) (S : Finset (Fin n)) :
    unitUniforms n {u | acceptedIndices (realBdCfg c dt f rc view) (List.ofFn u) (List.ofFn beta) =
        ((List.finRange n).filter (fun i => decide (i ∈ S))).map Fin.val} =
      ∏ i, ENNReal.ofReal (if i ∈ S then acceptProb dt f (beta i) else 1 - acceptProb dt f (beta i)) := by
  have hset : {u : Fin n → ℝ | acceptedIndices (realBdCfg c dt f rc view) (List.ofFn u) (List.ofFn beta) =
        ((List.finRange n).filter (fun i => decide (i ∈ S))).map Fin.val} =
      Set.univ.pi (fun i => if i ∈ S then {u : ℝ | u ≤ acceptProb dt f (beta i)}
        else {u : ℝ | ¬ u ≤ acceptProb dt f (beta i)}) := by
    ext u
    rw [Set.mem_ofPred_eq, accepted_iff]
    simp only [Set.mem_pi, Set.mem_univ, true_implies]
    refine forall_congr' (fun i => ?_)
    simp only [realBdCfg]
    by_cases h : i ∈ S
    · simp [h]
    · simp [h]
  rw [hset, unitUniforms, Measure.pi_pi]
  refine Finset.prod_congr rfl (fun i _ => ?_)
  obtain ⟨h0, h1⟩ := acceptProb_mem dt f hdt hf (beta i)
  split
  · exact unitUniform_le _ h0 h1
  · exact unitUniform_not_le _ h0 h1

/-- C101: in a step of birth-death whose random numbers `rng.random(n)` are independent and uniformly distributed, the
probability that exactly the walkers of `S` are selected is the product of the probabilities of the walkers:
`1 - exp(-|β| Δt f)` for the selected and `exp(-|β| Δt f)` for the others. -/
theorem selection_distribution {Ω : Type} [MeasurableSpace Ω] (Pr : Measure Ω) (c : RateCfg d) (hbw : ∀ k, 0 < c.bw k)
    (dt f : ℝ) (hdt : 0 ≤ dt) (hf : 0 ≤ f) (rc : Bool) (view : P → Walker d) (ops : RngOps R ℝ) (s : BdState P R)
    (r : Ω → R) (u : Ω → Fin s.particles.length → ℝ) (hu : Measurable u)
    (hlaw : Pr.map u = unitUniforms s.particles.length)
    (hr : ∀ ω, (ops.random s.particles.length (r ω)).1 = List.ofFn (u ω)) (S : Finset (Fin s.particles.length)) :
    ∃ b : Fin s.particles.length → ℝ,
      (∀ i, (bdBeta (realBdCfg c dt f rc view) s)[i.val]? = some ((b i : ℝ) : WithBot ℝ)) ∧
      Pr {ω | acceptedIndices (realBdCfg c dt f rc view) (bdRand ops { s with rng := r ω })
          (bdBeta (realBdCfg c dt f rc view) s) =
          ((List.finRange s.particles.length).filter (fun i => decide (i ∈ S))).map Fin.val} =
        ∏ i, ENNReal.ofReal (if i ∈ S then 1 - Real.exp (-|b i| * dt * f) else Real.exp (-|b i| * dt * f)) := by
  obtain ⟨b, hb, _⟩ := rates_sum c hbw (fun i : Fin s.particles.length => (view (s.particles.get i)).pos)
    (fun i => (view (s.particles.get i)).energy)
  have hbeta : bdBeta (realBdCfg c dt f rc view) s = List.ofFn (fun i => ((b i : ℝ) : WithBot ℝ)) := by
    unfold bdBeta
    simp only [realBdCfg]
    congr 1
    funext i
    exact hb i
  refine ⟨b, fun i => by rw [hbeta]; simp, ?_⟩
  have h := selection_law c dt f hdt hf rc view (fun i => ((b i : ℝ) : WithBot ℝ)) S
  rw [← hlaw, Measure.map_apply hu] at h
  · rw [hbeta]
    simp only [bdRand, hr]
    refine h.trans (Finset.prod_congr rfl (fun i _ => ?_))
    simp only [acceptProb]
    congr 2
    ring
  · have : {v : Fin s.particles.length → ℝ | acceptedIndices (realBdCfg c dt f rc view) (List.ofFn v)
        (List.ofFn (fun i => ((b i : ℝ) : WithBot ℝ))) =
        ((List.finRange s.particles.length).filter (fun i => decide (i ∈ S))).map Fin.val} =
        ⋂ i, {v | (realBdCfg c dt f rc view).accept (v i) ((b i : ℝ) : WithBot ℝ) = decide (i ∈ S)} := by
      ext v
      rw [Set.mem_ofPred_eq, accepted_iff, Set.mem_iInter]
      rfl
    rw [this]
    refine MeasurableSet.iInter (fun i => ?_)
    by_cases hi : i ∈ S
    · simp only [hi, realBdCfg, decide_true, decide_eq_true_eq]
      exact measurableSet_le (measurable_pi_apply i) measurable_const
    · simp only [hi, realBdCfg, decide_false, decide_eq_false_iff_not]
      exact (measurableSet_le (measurable_pi_apply i) measurable_const).compl

/-- C101: a uniformly distributed integer below `n - 1` makes the partner uniformly distributed among the other
walkers. -/
theorem partner_distribution (n i : Nat) (hi : i < n) (hn : 2 ≤ n) (j : Nat) :
    haveI : Nonempty (Fin (n - 1)) := ⟨⟨0, by omega⟩⟩
    ((PMF.uniformOfFintype (Fin (n - 1))).map (fun x => skipExcluded x.val i)) j =
      if j < n ∧ j ≠ i then ((n - 1 : ℕ) : ENNReal)⁻¹ else 0 := by
  have : Nonempty (Fin (n - 1)) := ⟨⟨0, by omega⟩⟩
  rw [PMF.map_apply, tsum_fintype]
  simp only [PMF.uniformOfFintype_apply, Fintype.card_fin]
  by_cases h : j < n ∧ j ≠ i
  · rw [if_pos h]
    have hx : ∃ x : Fin (n - 1), skipExcluded x.val i = j := by
      by_cases hlt : j < i
      · exact ⟨⟨j, by omega⟩, by unfold skipExcluded; rw [if_neg (by simp; omega)]⟩
      · exact ⟨⟨j - 1, by omega⟩, by unfold skipExcluded; rw [if_pos (by simp; omega)]; simp; omega⟩
    obtain ⟨x, hx⟩ := hx
    rw [Finset.sum_eq_single x]
    · rw [if_pos hx.symm]
    · intro y _ hy
      rw [if_neg]
      intro hj
      apply hy
      apply Fin.ext
      rw [← hx] at hj
      unfold skipExcluded at hj
      split at hj <;> split at hj <;> omega
    · intro hx'
      exact absurd (Finset.mem_univ x) hx'
  · rw [if_neg h]
    refine Finset.sum_eq_zero (fun x _ => ?_)
    rw [if_neg]
    rintro rfl
    apply h
    have := x.isLt
    unfold skipExcluded
    split <;> constructor <;> omega

/-- C101: a given walker is selected with probability `1 - exp(-|β| Δt f)`, whatever the others do. -/
theorem selection_marginal {n : Nat} (dt f : ℝ) (hdt : 0 ≤ dt) (hf : 0 ≤ f) (beta : Fin n → WithBot ℝ) (i : Fin n) :
    unitUniforms n {u | u i ≤ acceptProb dt f (beta i)} = ENNReal.ofReal (acceptProb dt f (beta i)) := by
  obtain ⟨h0, h1⟩ := acceptProb_mem dt f hdt hf (beta i)
  have h := (measurePreserving_eval (fun _ : Fin n => unitUniform) i).measure_preimage
    (s := {u : ℝ | u ≤ acceptProb dt f (beta i)}) measurableSet_Iic.nullMeasurableSet
  rw [unitUniform_le _ h0 h1] at h
  exact h

/-- C41: for independent standard normal noise the new position of a walker without boundary condition has independent
normal components with mean `x + Δt F(x)` and variance `2 Δt`. -/
theorem overdamped_distribution {d : Nat} (pot : Potential ℝ d) (dt : ℝ) (hdt : 0 ≤ dt) (hbc : pot.bc = none)
    (p : LdParticle ℝ d) (hp : Consistent (overdampedCfg pot dt) p) :
    ∃ step : (Fin d → ℝ) → LdParticle ℝ d,
      (∀ noise, overdampedStep (overdampedCfg pot dt) noise p = .ok (step noise)) ∧
      (Measure.pi (fun _ : Fin d => gaussianReal 0 1)).map (fun noise => (step noise).pos) =
        Measure.pi (fun k => gaussianReal (p.pos k + dt * (pot.evaluate p.pos).2 k) (2 * dt).toNNReal) := by
  choose step h1 _ h3 using fun noise => overdamped_euler_maruyama pot dt hbc noise p hp
  refine ⟨step, h1, ?_⟩
  have hpos : (fun noise => (step noise).pos) = fun (noise : Fin d → ℝ) k =>
      (fun x : ℝ => p.pos k + dt * (pot.evaluate p.pos).2 k + Real.sqrt (2 * dt) * x) (noise k) := by
    funext noise k
    exact h3 noise k
  have hmap := Measure.pi_map_pi (μ := fun _ : Fin d => gaussianReal 0 1)
    (f := fun k x => p.pos k + dt * (pot.evaluate p.pos).2 k + Real.sqrt (2 * dt) * x)
    (fun k => by fun_prop)
  rw [hpos]
  refine hmap.trans ?_
  congr 1
  funext k
  exact overdamped_displacement dt _ _ hdt

/-- The random numbers of C101 exist: take the numbers themselves as state of the generator. -/
example (n : Nat) : ∃ ops : RngOps (Fin n → ℝ) ℝ, ∀ u : Fin n → ℝ, (ops.random n u).1 = List.ofFn u :=
  ⟨⟨fun _ r => (List.ofFn r, r), fun l r => (l, r), fun _ r => (0, r)⟩, fun _ => rfl⟩

/-- Two walkers with rates 1 and -1: both are selected with probability `(1 - exp(-Δt))²`. -/
example (c : RateCfg 1) (view : Int → Walker 1) (dt : ℝ) (hdt : 0 ≤ dt) :
    unitUniforms 2 {u | acceptedIndices (realBdCfg c dt 1 false view) (List.ofFn u)
      (List.ofFn ![((1 : ℝ) : WithBot ℝ), ((-1 : ℝ) : WithBot ℝ)]) = [0, 1]} =
      ENNReal.ofReal (1 - Real.exp (-dt)) * ENNReal.ofReal (1 - Real.exp (-dt)) := by
  have h := selection_law c dt 1 hdt zero_le_one false view ![((1 : ℝ) : WithBot ℝ), ((-1 : ℝ) : WithBot ℝ)] Finset.univ
  have e : ((List.finRange 2).filter (fun i => decide (i ∈ (Finset.univ : Finset (Fin 2))))).map Fin.val = [0, 1] := by
    decide
  rw [e] at h
  rw [h, Fin.prod_univ_two]
  simp [acceptProb]

/-- Three walkers, excluded walker 1: the partner is 0 or 2, with probability 1/2 each. -/
example : (have : Nonempty (Fin (3 - 1)) := ⟨0⟩
    ((PMF.uniformOfFintype (Fin (3 - 1))).map (fun x => skipExcluded x.val 1)) 2) = 2⁻¹ := by
  have h := partner_distribution 3 1 (by decide) (by decide) 2
  rw [if_pos (by decide)] at h
  exact h

end

end Bdld
