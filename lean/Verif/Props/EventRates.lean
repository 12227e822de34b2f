import Verif.Props.Distribution
import Mathlib.Analysis.SpecialFunctions.ExpDeriv
import Mathlib.Analysis.Calculus.Deriv.Add
import Mathlib.Analysis.Calculus.Deriv.Mul

/-
C104: for short time steps birth-death is the jump process whose rates are the ones calculated by the code.
-/

namespace Bdld

open MeasureTheory ProbabilityTheory Spec

noncomputable section

variable {P R : Type} {d : Nat}

/-- A walker `i` is killed or duplicated by the only accepted random number. -/
theorem bulk_single {B U : Type} {c : BdCfg P B U} (hm : c.recalcProbs = false) {ops : RngOps R U} (hops : ops.Lawful)
    (s : BdState P R) (i : Nat) (b : B) (hn : 2 ≤ s.particles.length) (hi : i < s.particles.length)
    (hb : (bdBeta c s)[i]? = some b) (ha : acceptedIndices c (bdRand ops s) (bdBeta c s) = [i]) :
    ∃ s', doBirthDeath c ops s = .ok ([
      if c.gt0 b then
        (skipExcluded (ops.integers (s.particles.length - 1)
          (ops.shuffle [i] (ops.random s.particles.length s.rng).2).2).1 i, i)
      else
        (i, skipExcluded (ops.integers (s.particles.length - 1)
          (ops.shuffle [i] (ops.random s.particles.length s.rng).2).2).1 i)], s') := by
  have hx : (ops.integers (s.particles.length - 1)
      (ops.shuffle [i] (ops.random s.particles.length s.rng).2).2).1 < s.particles.length - 1 :=
    hops.integers_lt _ _ (by omega)
  have hk : skipExcluded (ops.integers (s.particles.length - 1)
      (ops.shuffle [i] (ops.random s.particles.length s.rng).2).2).1 i < s.particles.length := by
    unfold skipExcluded
    split <;> omega
  have hsh : (ops.shuffle [i] (ops.random s.particles.length s.rng).2).1 = [i] :=
    List.perm_singleton.1 (hops.shuffle_perm _ _)
  unfold doBirthDeath
  simp only [hm, Bool.false_eq_true, if_false]
  unfold doBulk
  simp only [bdRand, bdBeta] at ha hb
  simp only [ha, hsh, List.foldlM_cons, List.foldlM_nil]
  unfold bulkStep
  rw [if_neg (by simp), randomOther_eq _ _ _ _ hn]
  simp only [ok_bind, hb]
  cases hg : c.gt0 b with
  | true =>
    simp [performMoves, performMove, List.getElem?_eq_getElem hk, hi, pure_eq_ok, ok_bind]
  | false =>
    simp [performMoves, performMove, List.getElem?_eq_getElem hi, hk, pure_eq_ok, ok_bind]

/-- Without accepted random number there is no event. -/
theorem bulk_none {B U : Type} {c : BdCfg P B U} (hm : c.recalcProbs = false) {ops : RngOps R U} (hops : ops.Lawful)
    (s : BdState P R) (ha : acceptedIndices c (bdRand ops s) (bdBeta c s) = []) :
    ∃ s', doBirthDeath c ops s = .ok ([], s') := by
  have hsh : (ops.shuffle [] (ops.random s.particles.length s.rng).2).1 = [] :=
    List.perm_nil.1 (hops.shuffle_perm _ _)
  unfold doBirthDeath
  simp only [hm, Bool.false_eq_true, if_false]
  unfold doBulk
  simp only [bdRand, bdBeta] at ha
  simp [ha, hsh, performMoves, pure_eq_ok, ok_bind]

/-- The numbers drawn in a step in which only walker `i` is accepted: `u` for the walkers and then an integer below
`n - 1`; together they are uniformly distributed and independent. `r` is the state of the generator before the
step. -/
structure IdealNumbers {Ω : Type} [MeasurableSpace Ω] (Pr : Measure Ω) (ops : RngOps R ℝ) (n : Nat) (r : Ω → R)
    (u : Ω → Fin n → ℝ) : Prop where
  measurable : Measurable u
  random : ∀ ω, (ops.random n (r ω)).1 = List.ofFn (u ω)
  law : Pr.map u = unitUniforms n
  meas_int : ∀ (i : Fin n) (k : Nat),
    MeasurableSet {ω | (ops.integers (n - 1) (ops.shuffle [i.val] (ops.random n (r ω)).2).2).1 = k}
  joint : ∀ (i : Fin n) (A : Set (Fin n → ℝ)), MeasurableSet A → ∀ k < n - 1,
    Pr (u ⁻¹' A ∩ {ω | (ops.integers (n - 1) (ops.shuffle [i.val] (ops.random n (r ω)).2).2).1 = k}) =
      unitUniforms n A * ((n - 1 : ℕ) : ENNReal)⁻¹

/-- The set of numbers for which exactly the walkers of `S` are accepted. -/
def selSet {n : Nat} (dt f : ℝ) (b : Fin n → ℝ) (S : Finset (Fin n)) : Set (Fin n → ℝ) :=
  {u | ∀ i, u i ≤ 1 - Real.exp (-|b i| * dt * f) ↔ i ∈ S}

theorem selSet_measurable {n : Nat} (dt f : ℝ) (b : Fin n → ℝ) (S : Finset (Fin n)) :
    MeasurableSet (selSet dt f b S) := by
  have : selSet dt f b S = ⋂ i, {u | u i ≤ 1 - Real.exp (-|b i| * dt * f) ↔ i ∈ S} := by
    ext u
    rw [Set.mem_iInter]
    rfl
  rw [this]
  refine MeasurableSet.iInter (fun i => ?_)
  have hm : MeasurableSet {u : Fin n → ℝ | u i ≤ 1 - Real.exp (-|b i| * dt * f)} :=
    measurableSet_le (measurable_pi_apply i) measurable_const
  by_cases hi : i ∈ S
  · simpa [hi] using hm
  · have := hm.compl
    simpa [hi, Set.compl_def] using this

/-- Probability that exactly the walkers of `S` are accepted. -/
def selProb {n : Nat} (dt f : ℝ) (b : Fin n → ℝ) (S : Finset (Fin n)) : ℝ :=
  ∏ i, if i ∈ S then 1 - Real.exp (-|b i| * dt * f) else Real.exp (-|b i| * dt * f)

theorem selSet_prob {n : Nat} (dt f : ℝ) (hdt : 0 ≤ dt) (hf : 0 ≤ f) (b : Fin n → ℝ) (S : Finset (Fin n)) :
    unitUniforms n (selSet dt f b S) = ENNReal.ofReal (selProb dt f b S) := by
  have hset : selSet dt f b S = Set.univ.pi (fun i => if i ∈ S then {u : ℝ | u ≤ acceptProb dt f (b i)}
      else {u : ℝ | ¬ u ≤ acceptProb dt f (b i)}) := by
    ext u
    simp only [Set.mem_pi, Set.mem_univ, true_implies, selSet, Set.mem_ofPred_eq]
    refine forall_congr' (fun i => ?_)
    by_cases h : i ∈ S <;> simp [h, acceptProb]
  have hnn : ∀ i ∈ Finset.univ, (0 : ℝ) ≤ if i ∈ S then 1 - Real.exp (-|b i| * dt * f)
      else Real.exp (-|b i| * dt * f) := by
    intro i _
    split
    · exact (acceptProb_mem dt f hdt hf (b i)).1
    · exact (Real.exp_pos _).le
  rw [hset, unitUniforms, Measure.pi_pi, selProb, ENNReal.ofReal_prod_of_nonneg hnn]
  refine Finset.prod_congr rfl (fun i _ => ?_)
  obtain ⟨h0, h1⟩ := acceptProb_mem dt f hdt hf (b i)
  split
  · exact unitUniform_le _ h0 h1
  · rw [unitUniform_not_le _ h0 h1]
    simp [acceptProb]

theorem selProb_empty {n : Nat} (dt f : ℝ) (b : Fin n → ℝ) :
    selProb dt f b ∅ = Real.exp (-(∑ i, |b i|) * f * dt) := by
  unfold selProb
  simp only [Finset.notMem_empty, if_false]
  rw [← Real.exp_sum]
  congr 1
  rw [neg_mul, neg_mul, Finset.sum_mul, Finset.sum_mul, ← Finset.sum_neg_distrib]
  exact Finset.sum_congr rfl (fun i _ => by ring)

theorem selProb_single {n : Nat} (dt f : ℝ) (b : Fin n → ℝ) (i : Fin n) :
    selProb dt f b {i} = Real.exp (-(∑ j, |b j| - |b i|) * f * dt) - Real.exp (-(∑ j, |b j|) * f * dt) := by
  have h0 := selProb_empty dt f b
  unfold selProb at h0 ⊢
  simp only [Finset.notMem_empty, if_false] at h0
  rw [← Finset.mul_prod_erase _ _ (Finset.mem_univ i)] at h0 ⊢
  simp only [Finset.mem_singleton, if_true]
  have h1 : ∏ x ∈ Finset.univ.erase i, (if x = i then 1 - Real.exp (-|b x| * dt * f) else Real.exp (-|b x| * dt * f)) =
      ∏ x ∈ Finset.univ.erase i, Real.exp (-|b x| * dt * f) :=
    Finset.prod_congr rfl (fun x hx => by rw [if_neg (Finset.ne_of_mem_erase hx)])
  rw [h1, sub_mul, one_mul, h0]
  congr 1
  have h2 : ∏ x ∈ Finset.univ.erase i, Real.exp (-|b x| * dt * f) =
      Real.exp (-(∑ j, |b j|) * f * dt) / Real.exp (-|b i| * dt * f) := by
    rw [← h0, mul_div_cancel_left₀ _ (Real.exp_pos _).ne']
  rw [h2, ← Real.exp_sub]
  congr 1
  ring

/-- Bound for the probability of two or more accepted walkers. -/
def multiProb {n : Nat} (f : ℝ) (b : Fin n → ℝ) (dt : ℝ) : ℝ := 1 - selProb dt f b ∅ - ∑ i, selProb dt f b {i}

theorem exp_deriv_zero (a f : ℝ) : HasDerivAt (fun dt : ℝ => Real.exp (-a * f * dt)) (-a * f) 0 := by
  have h := ((hasDerivAt_id (0 : ℝ)).const_mul (-a * f)).exp
  simpa using h

theorem selProb_deriv {n : Nat} (f : ℝ) (b : Fin n → ℝ) (i : Fin n) :
    HasDerivAt (fun dt => selProb dt f b {i}) (f * |b i|) 0 := by
  simp only [selProb_single]
  have h := (exp_deriv_zero (∑ j, |b j| - |b i|) f).sub (exp_deriv_zero (∑ j, |b j|) f)
  exact h.congr_deriv (by ring)

theorem multiProb_deriv {n : Nat} (f : ℝ) (b : Fin n → ℝ) : HasDerivAt (multiProb f b) 0 0 := by
  unfold multiProb
  have h1 : HasDerivAt (fun dt => selProb dt f b ∅) (-(∑ i, |b i|) * f) 0 := by
    simp only [selProb_empty]
    exact exp_deriv_zero _ f
  have h2 := HasDerivAt.fun_sum (u := Finset.univ) (fun i _ => selProb_deriv f b i)
  have h := (h1.const_sub 1).sub h2
  refine h.congr_deriv ?_
  rw [← Finset.mul_sum]
  ring

theorem multiProb_zero {n : Nat} (f : ℝ) (b : Fin n → ℝ) : multiProb f b 0 = 0 := by
  simp [multiProb, selProb_empty, selProb_single]

/-- A function between another one and its sum with a term of second order. -/
theorem deriv_squeeze {g l h : ℝ → ℝ} {a : ℝ} (hl : HasDerivAt l a 0) (hh : HasDerivAt h 0 0) (h0 : h 0 = 0)
    (hg : ∀ t, 0 ≤ t → l t ≤ g t ∧ g t ≤ l t + h t) : HasDerivWithinAt g a (Set.Ici 0) 0 := by
  have he : HasDerivWithinAt (fun t => g t - l t) 0 (Set.Ici 0) 0 := by
    have h1 := (hh.hasDerivWithinAt (s := Set.Ici 0))
    rw [hasDerivWithinAt_iff_isLittleO] at h1 ⊢
    have hg0 : g 0 - l 0 = 0 := by
      have := hg 0 le_rfl
      rw [h0] at this
      linarith [this.1, this.2]
    simp only [h0, sub_zero, smul_zero] at h1
    simp only [hg0, sub_zero, smul_zero]
    refine Asymptotics.IsBigO.trans_isLittleO (Asymptotics.IsBigO.of_bound 1 ?_) h1
    filter_upwards [self_mem_nhdsWithin] with t ht
    obtain ⟨h2, h3⟩ := hg t ht
    rw [one_mul, Real.norm_eq_abs, Real.norm_eq_abs, abs_of_nonneg (by linarith), abs_of_nonneg (by linarith)]
    linarith
  have h1 := he.add (hl.hasDerivWithinAt (s := Set.Ici 0))
  refine (h1.congr_deriv (zero_add a)).congr (fun t _ => ?_) ?_ <;> simp

section main

variable {Ω : Type} [MeasurableSpace Ω] {Pr : Measure Ω} {ops : RngOps R ℝ} {n : Nat} {r : Ω → R} {u : Ω → Fin n → ℝ}

theorem IdealNumbers.sel (h : IdealNumbers Pr ops n r u) (A : Set (Fin n → ℝ)) (hA : MeasurableSet A) :
    Pr (u ⁻¹' A) = unitUniforms n A := by
  rw [← h.law, Measure.map_apply h.measurable hA]

theorem IdealNumbers.prob (h : IdealNumbers Pr ops n r u) : IsProbabilityMeasure Pr := by
  refine ⟨?_⟩
  have := h.sel Set.univ MeasurableSet.univ
  rw [Set.preimage_univ] at this
  rw [this]
  exact measure_univ

theorem selSet_disjoint (dt f : ℝ) (b : Fin n → ℝ) {S T : Finset (Fin n)} (h : S ≠ T) :
    Disjoint (selSet dt f b S) (selSet dt f b T) := by
  rw [Set.disjoint_left]
  intro v hS hT
  exact h (Finset.ext (fun i => (hS i).symm.trans (hT i)))

/-- The numbers for which two or more walkers are accepted. -/
def multiSet (dt f : ℝ) (b : Fin n → ℝ) : Set (Fin n → ℝ) :=
  (selSet dt f b ∅ ∪ ⋃ i, selSet dt f b {i})ᶜ

theorem multiSet_prob (dt f : ℝ) (hdt : 0 ≤ dt) (hf : 0 ≤ f) (b : Fin n → ℝ) :
    (unitUniforms n (multiSet dt f b)).toReal = multiProb f b dt := by
  have hnn : ∀ S, 0 ≤ selProb dt f b S := fun S => by
    unfold selProb
    refine Finset.prod_nonneg (fun i _ => ?_)
    split
    · exact (acceptProb_mem dt f hdt hf (b i)).1
    · exact (Real.exp_pos _).le
  have hU : unitUniforms n (⋃ i, selSet dt f b {i}) = ∑ i, unitUniforms n (selSet dt f b {i}) := by
    rw [measure_iUnion (fun i j hij => selSet_disjoint dt f b (fun e => hij (Finset.singleton_injective e)))
      (fun i => selSet_measurable dt f b {i}), tsum_fintype]
  have hD : Disjoint (selSet dt f b ∅) (⋃ i, selSet dt f b {i}) :=
    Set.disjoint_iUnion_right.2 (fun i => selSet_disjoint dt f b (Finset.singleton_ne_empty i).symm)
  have hM : MeasurableSet (selSet dt f b ∅ ∪ ⋃ i, selSet dt f b {i}) :=
    (selSet_measurable dt f b ∅).union (MeasurableSet.iUnion (fun i => selSet_measurable dt f b {i}))
  have h1 : unitUniforms n (selSet dt f b ∅ ∪ ⋃ i, selSet dt f b {i}) =
      ENNReal.ofReal (selProb dt f b ∅ + ∑ i, selProb dt f b {i}) := by
    rw [measure_union hD (MeasurableSet.iUnion (fun i => selSet_measurable dt f b {i})), hU]
    simp only [selSet_prob dt f hdt hf]
    rw [ENNReal.ofReal_add (hnn _) (Finset.sum_nonneg (fun i _ => hnn _)),
      ENNReal.ofReal_sum_of_nonneg (fun i _ => hnn _)]
  unfold multiSet multiProb
  rw [show (unitUniforms n _).toReal = (unitUniforms n).real _ from rfl, probReal_compl_eq_one_sub hM]
  unfold Measure.real
  rw [h1, ENNReal.toReal_ofReal (add_nonneg (hnn _) (Finset.sum_nonneg (fun i _ => hnn _)))]
  ring

/-- The integer that makes `random_other` return `j` for the excluded walker `i`. -/
def partnerInt (i j : Nat) : Nat := if j < i then j else j - 1

theorem partnerInt_iff {i j x : Nat} (hij : i ≠ j) : skipExcluded x i = j ↔ x = partnerInt i j := by
  unfold skipExcluded partnerInt
  split <;> split <;> omega

theorem partnerInt_lt {i j n : Nat} (hi : i < n) (hj : j < n) (hij : i ≠ j) : partnerInt i j < n - 1 := by
  unfold partnerInt
  split <;> omega

/-- Only walker `i` is accepted and its partner is `j`. -/
def singleEvent (ops : RngOps R ℝ) (r : Ω → R) (u : Ω → Fin n → ℝ) (dt f : ℝ) (b : Fin n → ℝ) (i j : Fin n) : Set Ω :=
  u ⁻¹' selSet dt f b {i} ∩
    {ω | (ops.integers (n - 1) (ops.shuffle [i.val] (ops.random n (r ω)).2).2).1 = partnerInt i j}

theorem singleEvent_prob (h : IdealNumbers Pr ops n r u) (dt f : ℝ) (hdt : 0 ≤ dt) (hf : 0 ≤ f) (b : Fin n → ℝ)
    (i j : Fin n) (hij : i ≠ j) :
    (Pr (singleEvent ops r u dt f b i j)).toReal = selProb dt f b {i} / (n - 1) := by
  unfold singleEvent
  rw [h.joint i _ (selSet_measurable dt f b {i}) _ (partnerInt_lt i.isLt j.isLt (fun e => hij (Fin.ext e))),
    selSet_prob dt f hdt hf, ENNReal.toReal_mul, ENNReal.toReal_inv, ENNReal.toReal_natCast, ENNReal.toReal_ofReal]
  · rw [div_eq_mul_inv, Nat.cast_sub (by have := i.pos; omega), Nat.cast_one]
  · unfold selProb
    refine Finset.prod_nonneg (fun i _ => ?_)
    split
    · exact (acceptProb_mem dt f hdt hf (b i)).1
    · exact (Real.exp_pos _).le

/-- Rate at which walker `i` is replaced by a copy of walker `j`. -/
def jumpRate (f : ℝ) (b : Fin n → ℝ) (j i : Fin n) : ℝ := f * (max (b i) 0 + max (-(b j)) 0) / (n - 1)

end main

/-- C104: for short time steps the probability that the step of birth-death consists of the single event "walker `i`
is replaced by a copy of walker `j`" is `Δt f (β_i⁺ + β_j⁻) / (n - 1)` up to terms of higher order: walkers with
positive rate die with this rate and walkers with negative rate are duplicated with this rate, and the partner is
chosen uniformly. (Numbers drawn are ideal.) -/
theorem event_rate {Ω : Type} [MeasurableSpace Ω] {Pr : Measure Ω} {ops : RngOps R ℝ} (hops : ops.Lawful)
    (c : RateCfg d) (hbw : ∀ k, 0 < c.bw k) (f : ℝ) (hf : 0 ≤ f) (view : P → Walker d) (s : BdState P R) (r : Ω → R)
    (u : Ω → Fin s.particles.length → ℝ) (hid : IdealNumbers Pr ops s.particles.length r u) :
    ∃ b : Fin s.particles.length → ℝ,
      (∀ i, calcBetas c (fun i : Fin s.particles.length => (view (s.particles.get i)).pos)
        (fun i => (view (s.particles.get i)).energy) i = (b i : WithBot ℝ)) ∧
      ∀ i j, i ≠ j → HasDerivWithinAt (fun dt => (Pr {ω | ∃ s',
          doBirthDeath (realBdCfg c dt f false view) ops { s with rng := r ω } = .ok ([(j.val, i.val)], s')}).toReal)
        (jumpRate f b j i) (Set.Ici 0) 0 := by
  obtain ⟨b, hb, _⟩ := rates_sum c hbw (fun i : Fin s.particles.length => (view (s.particles.get i)).pos)
    (fun i => (view (s.particles.get i)).energy)
  refine ⟨b, hb, fun i j hij => ?_⟩
  have hprob := hid.prob
  have hval : i.val ≠ j.val := fun e => hij (Fin.ext e)
  have hn : 2 ≤ s.particles.length := by have := i.isLt; have := j.isLt; omega
  have hbeta : ∀ dt ω, bdBeta (realBdCfg c dt f false view) { s with rng := r ω } =
      List.ofFn (fun i => ((b i : ℝ) : WithBot ℝ)) := by
    intro dt ω
    unfold bdBeta
    simp only [realBdCfg]
    congr 1
    funext i
    exact hb i
  -- accepted walkers in terms of the numbers
  have hacc : ∀ dt ω S, u ω ∈ selSet dt f b S ↔
      acceptedIndices (realBdCfg c dt f false view) (bdRand ops { s with rng := r ω })
        (bdBeta (realBdCfg c dt f false view) { s with rng := r ω }) =
        ((List.finRange s.particles.length).filter (fun i => decide (i ∈ S))).map Fin.val := by
    intro dt ω S
    rw [hbeta]
    simp only [bdRand, hid.random]
    rw [accepted_iff]
    refine forall_congr' (fun k => ?_)
    simp only [realBdCfg, acceptProb]
    by_cases hk : k ∈ S <;> simp [hk]
  have hone : ∀ k : Fin s.particles.length,
      ((List.finRange s.particles.length).filter (fun i => decide (i ∈ ({k} : Finset _)))).map Fin.val = [k.val] := by
    intro k
    have : (List.finRange s.particles.length).filter (fun i => decide (i ∈ ({k} : Finset _))) = [k] := by
      rw [List.filter_congr (q := fun i => i == k) (fun i _ => by simp [beq_eq_decide]), List.filter_beq,
        List.count_eq_one_of_mem (List.nodup_finRange _) (List.mem_finRange k)]
      rfl
    rw [this]
    rfl
  have hsingle : ∀ dt ω (k : Fin s.particles.length), u ω ∈ selSet dt f b {k} → ∃ s',
      doBirthDeath (realBdCfg c dt f false view) ops { s with rng := r ω } = .ok ([
        if 0 < b k then
          (skipExcluded (ops.integers (s.particles.length - 1)
            (ops.shuffle [k.val] (ops.random s.particles.length (r ω)).2).2).1 k, k.val)
        else
          (k.val, skipExcluded (ops.integers (s.particles.length - 1)
            (ops.shuffle [k.val] (ops.random s.particles.length (r ω)).2).2).1 k)], s') := by
    intro dt ω k hk
    have h1 := (hacc dt ω {k}).1 hk
    rw [hone] at h1
    obtain ⟨s', h2⟩ := bulk_single (c := realBdCfg c dt f false view) rfl hops { s with rng := r ω } k.val
      ((b k : ℝ) : WithBot ℝ) hn k.isLt (by rw [hbeta]; simp) h1
    refine ⟨s', h2.trans ?_⟩
    have hg : (realBdCfg c dt f false view).gt0 ((b k : ℝ) : WithBot ℝ) = @decide (0 < b k) (Classical.propDecidable _) := by
      simp only [realBdCfg]
      congr 1
      exact propext WithBot.coe_pos
    rw [hg]
    by_cases hk0 : 0 < b k <;> simp [hk0]
  -- the set lies between the single events and these with the case of several accepted walkers
  let E : ℝ → Set Ω := fun dt => {ω | ∃ s',
    doBirthDeath (realBdCfg c dt f false view) ops { s with rng := r ω } = .ok ([(j.val, i.val)], s')}
  let E1 : ℝ → Set Ω := fun dt => if 0 < b i then singleEvent ops r u dt f b i j else ∅
  let E2 : ℝ → Set Ω := fun dt => if 0 < b j then ∅ else singleEvent ops r u dt f b j i
  have hlow : ∀ dt, E1 dt ∪ E2 dt ⊆ E dt := by
    rintro dt ω (hω | hω)
    · by_cases h0 : 0 < b i
      · simp only [E1, if_pos h0] at hω
        obtain ⟨s', h'⟩ := hsingle dt ω i hω.1
        rw [if_pos h0, (partnerInt_iff hval).2 hω.2] at h'
        exact ⟨s', h'⟩
      · simp only [E1, if_neg h0] at hω
        exact absurd hω (Set.notMem_empty _)
    · by_cases h0 : 0 < b j
      · simp only [E2, if_pos h0] at hω
        exact absurd hω (Set.notMem_empty _)
      · simp only [E2, if_neg h0] at hω
        obtain ⟨s', h'⟩ := hsingle dt ω j hω.1
        rw [if_neg h0, (partnerInt_iff hval.symm).2 hω.2] at h'
        exact ⟨s', h'⟩
  have hup : ∀ dt, E dt ⊆ E1 dt ∪ E2 dt ∪ u ⁻¹' multiSet dt f b := by
    rintro dt ω ⟨s', hω⟩
    by_cases hmul : u ω ∈ multiSet dt f b
    · exact Or.inr hmul
    left
    simp only [multiSet, Set.mem_compl_iff, not_not, Set.mem_union, Set.mem_iUnion] at hmul
    rcases hmul with h0 | ⟨k, hk⟩
    · have h1 := (hacc dt ω ∅).1 h0
      simp only [Finset.notMem_empty, decide_false, List.filter_false, List.map_nil] at h1
      obtain ⟨s'', h2⟩ := bulk_none (c := realBdCfg c dt f false view) rfl hops { s with rng := r ω } h1
      rw [h2] at hω
      simp at hω
    · obtain ⟨s'', h2⟩ := hsingle dt ω k hk
      rw [h2] at hω
      by_cases hk0 : 0 < b k
      · rw [if_pos hk0] at hω
        simp only [Except.ok.injEq, Prod.mk.injEq, List.cons.injEq, and_true] at hω
        obtain ⟨⟨h3, h4⟩, _⟩ := hω
        obtain rfl : k = i := Fin.ext h4
        left
        simp only [E1, if_pos hk0]
        exact ⟨hk, (partnerInt_iff hval).1 h3⟩
      · rw [if_neg hk0] at hω
        simp only [Except.ok.injEq, Prod.mk.injEq, List.cons.injEq, and_true] at hω
        obtain ⟨⟨h3, h4⟩, _⟩ := hω
        obtain rfl : k = j := Fin.ext h3
        right
        simp only [E2, if_neg hk0]
        exact ⟨hk, (partnerInt_iff hval.symm).1 h4⟩
  -- probabilities
  have hmeas : ∀ dt (k l : Fin s.particles.length), MeasurableSet (singleEvent ops r u dt f b k l) := fun dt k l =>
    (hid.measurable (selSet_measurable dt f b {k})).inter (hid.meas_int k _)
  have hE12 : ∀ dt, 0 ≤ dt → (Pr (E1 dt ∪ E2 dt)).toReal =
      (if 0 < b i then selProb dt f b {i} / (s.particles.length - 1) else 0) +
      (if 0 < b j then 0 else selProb dt f b {j} / (s.particles.length - 1)) := by
    intro dt hdt
    have hdis : Disjoint (E1 dt) (E2 dt) := by
      simp only [E1, E2]
      split <;> split <;> try simp
      refine Disjoint.mono Set.inter_subset_left Set.inter_subset_left ?_
      exact (selSet_disjoint dt f b (fun e => hij (Finset.singleton_injective e))).preimage u
    have hm2 : MeasurableSet (E2 dt) := by
      simp only [E2]
      split
      · exact MeasurableSet.empty
      · exact hmeas dt j i
    rw [measure_union hdis hm2, ENNReal.toReal_add (measure_ne_top _ _) (measure_ne_top _ _)]
    congr 1
    · simp only [E1]
      split
      · exact singleEvent_prob hid dt f hdt hf b i j hij
      · simp
    · simp only [E2]
      split
      · simp
      · exact singleEvent_prob hid dt f hdt hf b j i hij.symm
  refine deriv_squeeze (l := fun dt => (if 0 < b i then selProb dt f b {i} / (s.particles.length - 1) else 0) +
      (if 0 < b j then 0 else selProb dt f b {j} / (s.particles.length - 1))) (h := multiProb f b) ?_
    (multiProb_deriv f b) (multiProb_zero f b) ?_
  · have h1 : HasDerivAt (fun dt => if 0 < b i then selProb dt f b {i} / ((s.particles.length : ℝ) - 1) else 0)
        (f * max (b i) 0 / (s.particles.length - 1)) 0 := by
      by_cases h0 : 0 < b i
      · simp only [if_pos h0, max_eq_left h0.le]
        have := (selProb_deriv f b i).div_const ((s.particles.length : ℝ) - 1)
        rwa [abs_of_pos h0] at this
      · simp only [if_neg h0, max_eq_right (not_lt.1 h0), mul_zero, zero_div]
        exact hasDerivAt_const _ _
    have h2 : HasDerivAt (fun dt => if 0 < b j then 0 else selProb dt f b {j} / ((s.particles.length : ℝ) - 1))
        (f * max (-(b j)) 0 / (s.particles.length - 1)) 0 := by
      by_cases h0 : 0 < b j
      · simp only [if_pos h0, max_eq_right (neg_nonpos.2 h0.le), mul_zero, zero_div]
        exact hasDerivAt_const _ _
      · simp only [if_neg h0, max_eq_left (neg_nonneg.2 (not_lt.1 h0))]
        have := (selProb_deriv f b j).div_const ((s.particles.length : ℝ) - 1)
        rwa [abs_of_nonpos (not_lt.1 h0)] at this
    refine (h1.add h2).congr_deriv ?_
    unfold jumpRate
    ring
  · intro dt hdt
    have hl := ENNReal.toReal_mono (measure_ne_top Pr _) (measure_mono (μ := Pr) (hlow dt))
    have hu := ENNReal.toReal_mono (measure_ne_top Pr _) (measure_mono (μ := Pr) (hup dt))
    have hu2 := ENNReal.toReal_mono (by finiteness)
      (measure_union_le (μ := Pr) (E1 dt ∪ E2 dt) (u ⁻¹' multiSet dt f b))
    have hms : MeasurableSet (multiSet dt f b) :=
      ((selSet_measurable dt f b ∅).union (MeasurableSet.iUnion (fun i => selSet_measurable dt f b {i}))).compl
    rw [ENNReal.toReal_add (measure_ne_top _ _) (measure_ne_top _ _), hid.sel _ hms,
      multiSet_prob dt f hdt hf b] at hu2
    rw [hE12 dt hdt] at hl hu2
    exact ⟨hl, hu.trans hu2⟩

/-- C104: with rates that add up to zero (C20), the sum of a function `φ` over the walkers changes on average with the
speed `- f n/(n-1) Σ β_i φ_i`: the equation `∂ρ/∂t = -β ρ` of birth-death, for `n` walkers. -/
theorem event_drift {n : Nat} (hn : 2 ≤ n) (f : ℝ) (b φ : Fin n → ℝ) (hb : ∑ i, b i = 0) :
    ∑ i, ∑ j, jumpRate f b j i * (φ j - φ i) = -(f * n / (n - 1)) * ∑ i, b i * φ i := by
  have hn1 : (n : ℝ) - 1 ≠ 0 := by
    have : (2 : ℝ) ≤ n := by exact_mod_cast hn
    linarith
  have hsplit : ∀ x : ℝ, max x 0 - max (-x) 0 = x := fun x => by
    rcases le_total 0 x with h | h
    · rw [max_eq_left h, max_eq_right (by linarith)]; ring
    · rw [max_eq_right h, max_eq_left (by linarith)]; ring
  have h1 : ∑ i, ∑ j, max (b i) 0 * (φ j - φ i) = (∑ i, max (b i) 0) * ∑ j, φ j - n * ∑ i, max (b i) 0 * φ i := by
    simp only [← Finset.mul_sum, Finset.sum_sub_distrib, Finset.sum_const, Finset.card_univ, Fintype.card_fin,
      nsmul_eq_mul, mul_sub, Finset.sum_mul]
    congr 1
    rw [Finset.mul_sum]
    exact Finset.sum_congr rfl (fun i _ => by ring)
  have h2 : ∑ i, ∑ j, max (-(b j)) 0 * (φ j - φ i) =
      n * ∑ j, max (-(b j)) 0 * φ j - (∑ j, max (-(b j)) 0) * ∑ i, φ i := by
    rw [Finset.sum_comm]
    simp only [← Finset.mul_sum, Finset.sum_sub_distrib, Finset.sum_const, Finset.card_univ, Fintype.card_fin,
      nsmul_eq_mul, mul_sub, Finset.sum_mul]
    congr 1
    rw [Finset.mul_sum]
    exact Finset.sum_congr rfl (fun i _ => by ring)
  have h3 : ∑ i, ∑ j, jumpRate f b j i * (φ j - φ i) =
      f / (n - 1) * (∑ i, ∑ j, max (b i) 0 * (φ j - φ i) + ∑ i, ∑ j, max (-(b j)) 0 * (φ j - φ i)) := by
    rw [← Finset.sum_add_distrib, Finset.mul_sum]
    refine Finset.sum_congr rfl (fun i _ => ?_)
    rw [← Finset.sum_add_distrib, Finset.mul_sum]
    refine Finset.sum_congr rfl (fun j _ => ?_)
    unfold jumpRate
    field_simp
  have h4 : (∑ i, max (b i) 0) - ∑ i, max (-(b i)) 0 = 0 := by
    rw [← Finset.sum_sub_distrib]
    exact (Finset.sum_congr rfl (fun i _ => hsplit _)).trans hb
  have h5 : ∑ i, b i * φ i = ∑ i, max (b i) 0 * φ i - ∑ i, max (-(b i)) 0 * φ i := by
    rw [← Finset.sum_sub_distrib]
    exact Finset.sum_congr rfl (fun i _ => by rw [← sub_mul, hsplit])
  rw [h3, h1, h2, h5]
  have h6 : (∑ i, max (b i) 0) * ∑ j, φ j = (∑ i, max (-(b i)) 0) * ∑ j, φ j := by rw [sub_eq_zero.1 h4]
  rw [h6]
  field_simp
  ring

/-- Ideal numbers exist for every number of walkers from two on: the state of the generator consists of the numbers
themselves. -/
example (n : Nat) (hn : 2 ≤ n) : ∃ (Pr : Measure ((Fin n → ℝ) × Fin (n - 1)))
    (ops : RngOps ((Fin n → ℝ) × Fin (n - 1)) ℝ), IdealNumbers Pr ops n id Prod.fst := by
  have : Nonempty (Fin (n - 1)) := ⟨⟨0, by omega⟩⟩
  let ν : Measure (Fin (n - 1)) := (PMF.uniformOfFintype (Fin (n - 1))).toMeasure
  have : IsProbabilityMeasure ν := PMF.toMeasure.isProbabilityMeasure _
  refine ⟨(unitUniforms n).prod ν, ⟨fun _ r => (List.ofFn r.1, r), fun l r => (l, r), fun _ r => (r.2.val, r)⟩,
    measurable_fst, fun ω => rfl, ?_, fun i k => ?_, fun i A hA k hk => ?_⟩
  · rw [Measure.map_fst_prod, measure_univ, one_smul]
  · exact measurable_snd (MeasurableSet.of_discrete (s := {x : Fin (n - 1) | x.val = k}))
  · have hset : (Prod.fst ⁻¹' A ∩ {ω : (Fin n → ℝ) × Fin (n - 1) | ω.2.val = k}) = A ×ˢ {⟨k, hk⟩} := by
      ext ω
      simp [Fin.ext_iff]
    refine (congrArg _ hset).trans ?_
    rw [Measure.prod_prod]
    congr 1
    simp only [ν]
    rw [PMF.toMeasure_apply_singleton _ _ (MeasurableSet.singleton _), PMF.uniformOfFintype_apply, Fintype.card_fin]

/-- Three walkers with rates 2, -1 and -1: walker 0 is replaced by a copy of walker 1 with rate 3/2 f. -/
example (f : ℝ) : jumpRate (n := 3) f ![2, -1, -1] 1 0 = 3 / 2 * f := by
  simp only [jumpRate, Matrix.cons_val_zero, Matrix.cons_val_one]
  norm_num
  ring

end

end Bdld
