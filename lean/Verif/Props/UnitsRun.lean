import Verif.Props.Langevin
import Verif.Props.Units
import Verif.Lemmas.BdMap
import Verif.Spec.Main

/-
C148: change of units for the rates of birth-death and for whole simulations.
-/

namespace Bdld

open Spec

noncomputable section

variable {d : Nat} (U : Units d)

/-- The kernel is a density: in the new units it is divided by length^d. -/
theorem kernel_units (bw x : Fin d → ℝ) :
    kernel (fun k => U.length * bw k) (fun k => U.length * x k) = kernel bw x / U.length ^ d := by
  have hl := U.length_pos.ne'
  unfold kernel normalPdf
  rw [eq_div_iff (pow_ne_zero d hl)]
  have : U.length ^ d = ∏ _k : Fin d, U.length := by simp
  rw [this, ← Finset.prod_mul_distrib]
  refine Finset.prod_congr rfl fun k _ => ?_
  have e : (U.length * x k) ^ 2 / (2 * (U.length * bw k) ^ 2) = x k ^ 2 / (2 * bw k ^ 2) := by
    rw [mul_pow, mul_pow, mul_left_comm, mul_div_mul_left _ _ (pow_ne_zero 2 hl)]
  rw [e, mul_assoc U.length, one_div, one_div, mul_inv]
  field_simp

theorem kde_units {n : Nat} (bw : Fin d → ℝ) (pos : Fin n → Fin d → ℝ) (x : Fin d → ℝ) :
    kde (fun k => U.length * bw k) (fun j => U.pos (pos j)) (U.pos x) = kde bw pos x / U.length ^ d := by
  unfold kde
  have : ∀ j, U.pos x - U.pos (pos j) = fun k => U.length * (x - pos j) k := by
    intro j; funext k; simp only [Units.pos, Pi.sub_apply]; ring
  simp only [this, kernel_units]
  rw [← Finset.sum_div, div_right_comm]

private theorem centred_const {n : Nat} (v : Fin n → ℝ) (a : ℝ) (i : Fin n) :
    centred (fun i => v i + a) i = centred v i := by
  unfold centred
  have h : (n : ℝ) ≠ 0 := by have := i.pos; exact_mod_cast this.ne'
  rw [Finset.sum_add_distrib, Finset.sum_const, Finset.card_univ, Fintype.card_fin, nsmul_eq_mul]
  field_simp
  ring

theorem kde_pos {n : Nat} (bw : Fin d → ℝ) (hbw : ∀ k, 0 < bw k) (pos : Fin n → Fin d → ℝ) (i : Fin n) :
    0 < kde bw pos (pos i) := by
  rw [← (density_agree pos bw).2 i]
  exact (density_lower_bound pos bw hbw i).2

/-- C148: the birth-death rates are pure numbers; the zero of the energy and the origin do not matter either. -/
theorem rates_units {n : Nat} {S : (Fin d → ℝ) → Prop} {c c' : RateCfg d} (h : U.ConvertsRates S c c')
    (hbw : ∀ k, 0 < c.bw k) (pos : Fin n → Fin d → ℝ) (hS : ∀ i, S (pos i)) (ene : Fin n → ℝ) :
    calcBetas c' (fun i => U.pos (pos i)) (fun i => U.energy (ene i)) = calcBetas c pos ene := by
  have hbw' : ∀ k, 0 < c'.bw k := fun k => by rw [h.bw]; exact mul_pos U.length_pos (hbw k)
  have hε := U.energyFactor_pos.ne'
  funext i
  rw [rates_eq c' hbw', rates_eq c hbw, h.variant]
  have hb : c'.bw = fun k => U.length * c.bw k := funext h.bw
  have e2 : (if c.variant = .add then c'.approx (U.pos (pos i)) else 0) = if c.variant = .add then c.approx (pos i) else 0 := by
    by_cases hv : c.variant = .add
    · rw [if_pos hv, if_pos hv, h.additive hv _ (hS i)]
    · rw [if_neg hv, if_neg hv]
  rw [e2]
  congr 2
  obtain ⟨a, ha⟩ : ∃ a, ∀ i, rawRate c' (fun i => U.pos (pos i)) (fun i => U.energy (ene i)) i
      = rawRate c pos ene i + a := by
    obtain ⟨b, hb'⟩ : ∃ b, c.variant = .mult → ∀ x, S x → c'.approx (U.pos x) = c.approx x + b := by
      by_cases hv : c.variant = .mult
      · obtain ⟨b, hb⟩ := h.multiplicative hv
        exact ⟨b, fun _ => hb⟩
      · exact ⟨0, fun hv' => absurd hv' hv⟩
    refine ⟨-Real.log (U.length ^ d) + if c.variant = .mult then b else U.zero / (U.energyFactor * c.kt), fun i => ?_⟩
    unfold rawRate
    rw [hb, kde_units, Real.log_div (kde_pos c.bw hbw pos i).ne' (pow_pos U.length_pos d).ne', h.variant, h.kt]
    by_cases hv : c.variant = .mult
    · simp only [if_pos hv]
      rw [hb' hv _ (hS i)]
      ring
    · simp only [if_neg hv]
      unfold Units.energy
      rw [add_div, mul_div_mul_left _ _ hε]
      ring
  rw [funext ha]
  exact centred_const _ a i

theorem acceptProb_units (dt fac : ℝ) (b : WithBot ℝ) :
    acceptProb (U.time * dt) (fac / U.time) b = acceptProb dt fac b := by
  have := U.time_pos.ne'
  rcases b with _ | b
  · rfl
  · show 1 - Real.exp _ = 1 - Real.exp _
    congr 2
    field_simp

private theorem betas_units {S : (Fin d → ℝ) → Prop} {c c' : RateCfg d} (h : U.ConvertsRates S c c')
    (hbw : ∀ k, 0 < c.bw k) (ps : List (LdParticle ℝ d)) (hS : ∀ p ∈ ps, S p.pos) :
    List.ofFn (fun i : Fin (ps.map U.particle).length =>
      calcBetas c' (fun i : Fin (ps.map U.particle).length => ((ps.map U.particle).get i).pos)
        (fun i => ((ps.map U.particle).get i).energy) i)
    = List.ofFn (fun i : Fin ps.length => calcBetas c (fun i : Fin ps.length => (ps.get i).pos)
        (fun i => (ps.get i).energy) i) := by
  have key : ∀ (m : Nat) (hm : m = ps.length) (f : Fin m → Fin d → ℝ) (g : Fin m → ℝ),
      (∀ j : Fin m, f j = U.pos (ps.get (j.cast hm)).pos) →
      (∀ j : Fin m, g j = U.energy (ps.get (j.cast hm)).energy) →
      List.ofFn (fun i => calcBetas c' f g i) = List.ofFn (fun i : Fin ps.length =>
        calcBetas c (fun i : Fin ps.length => (ps.get i).pos) (fun i => (ps.get i).energy) i) := by
    intro m hm f g hf hg
    subst hm
    have e1 : f = fun j : Fin ps.length => U.pos (ps.get j).pos := funext hf
    have e2 : g = fun j : Fin ps.length => U.energy (ps.get j).energy := funext hg
    rw [e1, e2, rates_units U h hbw _ (fun i => hS _ (List.get_mem _ _))]
  refine key _ (List.length_map _) _ _ (fun j => ?_) (fun j => ?_)
  · rw [List.get_eq_getElem, List.getElem_map]; rfl
  · rw [List.get_eq_getElem, List.getElem_map]; rfl

/-- C148: birth-death with the constants of the new units makes the same decisions about the converted walkers. -/
theorem decisions_units {S : (Fin d → ℝ) → Prop} {c c' : RateCfg d} (h : U.ConvertsRates S c c') (hbw : ∀ k, 0 < c.bw k) (dt fac : ℝ)
    (recalc : Bool) :
    MappedDecisions U.particle (fun p => S p.pos)
      (realBdCfg c dt fac recalc (fun p : LdParticle ℝ d => ⟨p.pos, p.energy⟩))
      (realBdCfg c' (U.time * dt) (fac / U.time) recalc (fun p : LdParticle ℝ d => ⟨p.pos, p.energy⟩)) where
  betas := fun ps hS => betas_units U h hbw ps hS
  gt0 := fun _ => rfl
  lt0 := fun _ => rfl
  accept := fun u b => by
    unfold realBdCfg
    simp only [acceptProb_units]
  recalc := rfl

/-! ### Simulations -/

/-- The integrator `c'` in the new units does the same as `c`. -/
def StepConverts (kind : LdKind) (c c' : LdCfg ℝ d) : Prop :=
  ∀ (R : Type) (normal : NormalOps R ℝ d) (p : LdParticle ℝ d) (r : R),
    particleStep kind c' normal (U.particle p) r
      = (particleStep kind c normal p r).map (fun x => (U.particle x.1, x.2))

theorem stepConverts_bussi {pot pot' : Potential ℝ d} (h : U.Converts pot pot') (dt friction kt : ℝ) :
    StepConverts U .bussi (bussiCfg pot dt friction kt)
      (bussiCfg pot' (U.time * dt) (friction / U.time) (U.energyFactor * kt)) := by
  intro R normal p r
  simp only [particleStep, bussi_units U h]
  rcases bussiStep _ _ _ _ with e | x <;> rfl

theorem stepConverts_overdamped {pot pot' : Potential ℝ d} (h : U.Converts pot pot') (he : U.energyFactor = 1)
    (ht : U.time = U.length ^ 2) (dt : ℝ) :
    StepConverts U .overdamped (overdampedCfg pot dt) (overdampedCfg pot' (U.time * dt)) := by
  intro R normal p r
  simp only [particleStep, overdamped_units_partial U h he ht]
  rcases overdampedStep _ _ _ with e | x <;> rfl

theorem ldLoop_units {kind : LdKind} {c c' : LdCfg ℝ d} (h : StepConverts U kind c c') {R : Type}
    (normal : NormalOps R ℝ d) : ∀ (ps : List (LdParticle ℝ d)) (r : R),
    ldLoop kind c' normal (ps.map U.particle) r
      = (ldLoop kind c normal ps r).map (fun x => (x.1.map U.particle, x.2))
  | [], r => rfl
  | p :: ps, r => by
    rw [List.map_cons, ldLoop, ldLoop, h]
    rcases particleStep kind c normal p r with e | x
    · rfl
    · show (ldLoop kind c' normal (ps.map U.particle) x.2 >>= _) = _
      rw [ldLoop_units h normal ps x.2]
      show _ = Except.map _ (ldLoop kind c normal ps x.2 >>= _)
      rcases ldLoop kind c normal ps x.2 with e | y <;> rfl

/-- The state of the dynamics in the new units. -/
def dynUnits {R : Type} (x : Dyn d R) : Dyn d R := ⟨x.particles.map U.particle, x.ldRng, x.bd⟩

/-- The birth-death action in the new units, for walkers at positions in `S`. -/
def BdConverts (S : (Fin d → ℝ) → Prop) (b b' : BdAct d) : Prop :=
  b'.stride = b.stride ∧ b'.statsStride = b.statsStride ∧ MappedDecisions U.particle (fun p => S p.pos) b.cfg b'.cfg

/-- After a step of the integrator all walkers are at positions in `S`. -/
def StepsInto {R : Type} (w : World R) (kind : LdKind) (c : LdCfg ℝ d) (S : (Fin d → ℝ) → Prop) : Prop :=
  ∀ ps r x, ldLoop kind c (w.normal d) ps r = .ok x → ∀ p ∈ x.1, S p.pos

theorem stepsInto_all {R : Type} (w : World R) (kind : LdKind) (c : LdCfg ℝ d) : StepsInto w kind c (fun _ => True) :=
  fun _ _ _ _ _ _ => trivial

/-- With a reflective boundary condition these are the positions in the ranges. -/
theorem stepsInto_reflective {R : Type} (w : World R) (kind : LdKind) (c : LdCfg ℝ d) (hbc : c.pot.bc = some .reflective)
    (hlh : ∀ r ∈ c.pot.ranges, r.1 ≤ r.2) : StepsInto w kind c (InRanges c.pot.ranges) := by
  intro ps r x hx
  exact ld_reflective_inside kind c (w.normal d) hbc hlh [] (by simp) ⟨ps, r⟩ ⟨x.1, x.2⟩ (by
    show ((LdState.run kind c (w.normal d) ⟨ps, r⟩) >>= _) = _
    unfold LdState.run
    simp only [hx]
    rfl)

theorem dynStep_units {R : Type} (w : World R) {kind : LdKind} {c c' : LdCfg ℝ d} (h : StepConverts U kind c c')
    {S : (Fin d → ℝ) → Prop} (hS : StepsInto w kind c S) {b b' : Option (BdAct d)}
    (hb : Option.Rel (BdConverts U S) b b') (x : Dyn d R) (step : Nat) :
    dynStep w kind c' b' (dynUnits U x) step = (dynStep w kind c b x step).map (dynUnits U) := by
  unfold dynStep dynUnits LdState.run
  simp only [ldLoop_units U h]
  rcases hy : ldLoop kind c (w.normal d) x.particles x.ldRng with e | y
  · rfl
  cases hb with
  | none => rfl
  | @some b b' hb =>
    obtain ⟨h1, h2, h3⟩ := hb
    rcases x.bd with _ | z
    · rfl
    · show (bdRun b'.cfg w.bdOps b'.stride b'.statsStride (⟨y.1.map U.particle, z.rng, z.stats⟩, z.log) step >>= _)
        = Except.map _ (bdRun b.cfg w.bdOps b.stride b.statsStride (⟨y.1, z.rng, z.stats⟩, z.log) step >>= _)
      rw [h1, h2]
      rw [h3.bdRun_map w.bdOps b.stride b.statsStride (⟨y.1, z.rng, z.stats⟩, z.log) step (hS _ _ _ hy)]
      rcases bdRun b.cfg w.bdOps b.stride b.statsStride (⟨y.1, z.rng, z.stats⟩, z.log) step with e | u <;> rfl

theorem dynSteps_units {R : Type} (w : World R) {kind : LdKind} {c c' : LdCfg ℝ d} (h : StepConverts U kind c c')
    {S : (Fin d → ℝ) → Prop} (hS : StepsInto w kind c S) {b b' : Option (BdAct d)}
    (hb : Option.Rel (BdConverts U S) b b') (x : Dyn d R) : ∀ n,
    dynSteps w kind c' b' n (dynUnits U x) = (dynSteps w kind c b n x).map (dynUnits U)
  | 0 => rfl
  | n + 1 => by
    rw [dynSteps, dynSteps, dynSteps_units w h hS hb x n]
    rcases dynSteps w kind c b n x with e | y
    · rfl
    · exact dynStep_units U w h hS hb y (n + 1)

end

end Bdld
