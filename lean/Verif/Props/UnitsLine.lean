import Verif.Props.UnitsMain
import Verif.Props.MainCorrection

/-
C148: the corrections of the birth-death rates in one dimension under a change of units.
-/

namespace Bdld

open Spec

noncomputable section

/-- The one-dimensional system `t` is `s` in other units: lengths are multiplied by `l`, the origin is shifted by `a`,
energies are multiplied by `ε`, their zero is shifted by `z`. -/
structure Spec.Line.ConvertedTo (s : Line) (l a ε z : ℝ) (t : Line) : Prop where
  lo : t.lo = l * s.lo + a
  hi : t.hi = l * s.hi + a
  bw : t.bw = l * s.bw
  kt : t.kt = ε * s.kt
  energy : ∀ x, t.energy (l * x + a) = ε * s.energy x + z

theorem lin_scale (x₀ h l a : ℝ) (hl : 0 < l) (n : Nat) (v : Nat → ℝ) (x : ℝ) :
    lin (l * x₀ + a) (l * h) n v (l * x + a) = lin x₀ h n v x := by
  have e : (l * x + a - (l * x₀ + a)) / (l * h) = (x - x₀) / h := by
    rw [show l * x + a - (l * x₀ + a) = l * (x - x₀) by ring, mul_div_mul_left _ _ hl.ne']
  unfold lin
  simp only [e]

theorem lin_smul (x₀ h b : ℝ) (n : Nat) (v : Nat → ℝ) (x : ℝ) :
    lin x₀ h n (fun j => v j / b) x = lin x₀ h n v x / b := by
  unfold lin
  simp only
  ring

theorem lin_shift (x₀ h b : ℝ) (n : Nat) (v : Nat → ℝ) (x : ℝ) :
    lin x₀ h n (fun j => v j + b) x = lin x₀ h n v x + b := by
  unfold lin
  simp only
  ring

theorem normalPdf_scale (l σ x : ℝ) (hl : 0 < l) : normalPdf (l * σ) (l * x) = normalPdf σ x / l := by
  unfold normalPdf
  rw [show (l * x) ^ 2 / (2 * (l * σ) ^ 2) = x ^ 2 / (2 * σ ^ 2) by
    rw [mul_pow, mul_pow, show 2 * (l ^ 2 * σ ^ 2) = l ^ 2 * (2 * σ ^ 2) by ring,
      mul_div_mul_left _ _ (pow_pos hl 2).ne']]
  rw [mul_assoc l σ, one_div, mul_inv, one_div]
  field_simp

theorem lin_pos (x₀ h : ℝ) (hh : 0 < h) (n : Nat) (hn : 2 ≤ n) (v : Nat → ℝ) (hv : ∀ j < n, 0 < v j) (x : ℝ)
    (h0 : x₀ ≤ x) (h1 : x ≤ x₀ + (n - 1) * h) : 0 < lin x₀ h n v x := by
  set y := (x - x₀) / h with hy
  have hx : x = x₀ + y * h := by rw [hy, div_mul_cancel₀ _ hh.ne']; ring
  have y0 : 0 ≤ y := div_nonneg (by linarith) hh.le
  have y1 : y ≤ n - 1 := by rw [hy, div_le_iff₀ hh]; linarith
  obtain ⟨j, t, hj, t0, t1, e⟩ : ∃ (j : Nat) (t : ℝ), j + 1 < n ∧ 0 ≤ t ∧ t ≤ 1 ∧ y = j + t := by
    by_cases hl : ⌊y⌋₊ + 1 < n
    · exact ⟨⌊y⌋₊, y - ⌊y⌋₊, hl, by linarith [Nat.floor_le y0], by linarith [Nat.lt_floor_add_one y], by ring⟩
    · have h2 : ((n - 1 : Nat) : ℝ) ≤ ⌊y⌋₊ := by exact_mod_cast (by omega : n - 1 ≤ ⌊y⌋₊)
      have h3 := Nat.floor_le y0
      have h4 : ((n - 1 : Nat) : ℝ) = n - 1 := by push_cast [Nat.cast_sub (by omega : 1 ≤ n)]; ring
      have h5 : ((n - 2 : Nat) : ℝ) = n - 2 := by push_cast [Nat.cast_sub hn]; ring
      exact ⟨n - 2, 1, by omega, zero_le_one, le_refl 1, by rw [h5]; linarith⟩
  rw [hx, e, lin_between x₀ h hh n v j hj t t0 t1]
  have a := hv j (by omega)
  have b := hv (j + 1) hj
  rcases t1.lt_or_eq with t1 | rfl
  · have : 0 < (1 - t) * v j := mul_pos (by linarith) a
    have : 0 ≤ t * v (j + 1) := mul_nonneg t0 b.le
    linarith
  · linarith

namespace Spec.Line.ConvertedTo

variable {s t : Line} {l a ε z : ℝ} (h : s.ConvertedTo l a ε z t) (hl : 0 < l) (hε : 0 < ε)
include h hl

omit hl in
theorem range_eq : t.hi - t.lo = l * (s.hi - s.lo) := by rw [h.lo, h.hi]; ring

theorem size_eq : t.size = s.size := by
  unfold Line.size
  rw [h.range_eq, h.bw, show 2 * (l * (s.hi - s.lo)) = l * (2 * (s.hi - s.lo)) by ring, mul_div_mul_left _ _ hl.ne']

theorem step_eq : t.step = l * s.step := by
  unfold Line.step
  rw [h.range_eq, h.size_eq hl, mul_div_assoc]

theorem reach_eq : t.reach = s.reach := by
  unfold Line.reach
  rw [h.step_eq hl, h.bw, show 10 * (l * s.bw) = l * (10 * s.bw) by ring, mul_div_mul_left _ _ hl.ne']

theorem offset_eq : t.offset = l * s.offset := by
  unfold Line.offset
  rw [h.reach_eq hl, h.step_eq hl, h.bw]
  ring

include hε

theorem boltzmann_eq (i : Nat) : t.boltzmann i = Real.exp (-z / (ε * s.kt)) * s.boltzmann i := by
  unfold Line.boltzmann
  rw [h.step_eq hl, h.lo, h.kt, show l * s.lo + a + i * (l * s.step) = l * (s.lo + i * s.step) + a by ring, h.energy,
    ← Real.exp_add]
  congr 1
  rw [show -(ε * s.energy (s.lo + i * s.step) + z) = -z + ε * -s.energy (s.lo + i * s.step) by ring, add_div,
    mul_div_mul_left _ _ hε.ne']

theorem density_eq (i : Nat) : t.density i = s.density i / l := by
  unfold Line.density
  rw [h.size_eq hl, h.step_eq hl]
  simp only [h.boltzmann_eq hl hε]
  rw [← Finset.mul_sum, mul_assoc, mul_div_mul_left _ _ (Real.exp_pos _).ne', mul_left_comm, div_mul_eq_div_div_swap]

theorem smooth_eq (k : Nat) : t.smooth k = s.smooth k / l := by
  unfold Line.smooth
  rw [h.size_eq hl, h.step_eq hl, h.reach_eq hl, h.offset_eq hl, h.bw, Finset.mul_sum, Finset.mul_sum, Finset.sum_div]
  refine Finset.sum_congr rfl fun i _ => ?_
  by_cases hc : i ≤ k + s.reach / 2 ∧ k + s.reach / 2 ≤ i + s.reach
  · rw [if_pos hc, if_pos hc, h.density_eq hl hε,
      show ((k : ℝ) - i) * (l * s.step) + l * s.offset = l * ((k - i) * s.step + s.offset) by ring, normalPdf_scale _ _ _ hl]
    field_simp
  · rw [if_neg hc, if_neg hc]; simp

theorem ratio_eq (k : Nat) : t.smooth k / t.density k = s.smooth k / s.density k := by
  rw [h.smooth_eq hl hε, h.density_eq hl hε, div_div_div_cancel_right₀ hl.ne']

theorem logAverage_eq : t.logAverage = s.logAverage := by
  unfold Line.logAverage
  rw [h.size_eq hl, h.step_eq hl]
  refine Finset.sum_congr rfl fun i _ => ?_
  rw [h.ratio_eq hl hε, h.density_eq hl hε]
  field_simp

theorem additive_eq : t.additive = s.additive := by
  funext k
  unfold Line.additive
  rw [h.ratio_eq hl hε, h.logAverage_eq hl hε]

omit hε hl in
theorem coarse_eq (m : Nat) : t.coarse m = l * s.coarse m + a := by
  unfold Line.coarse
  rw [h.range_eq, h.lo]
  ring

omit hε in
theorem inside_iff (x : ℝ) : (t.lo ≤ l * x + a ∧ l * x + a ≤ t.hi) ↔ (s.lo ≤ x ∧ x ≤ s.hi) := by
  rw [h.lo, h.hi, add_le_add_iff_right, add_le_add_iff_right, mul_le_mul_iff_right₀ hl, mul_le_mul_iff_right₀ hl]

omit hε in
theorem fromCoarse_eq (v : Nat → ℝ) (x : ℝ) : t.fromCoarse v (l * x + a) = s.fromCoarse v x := by
  unfold Line.fromCoarse
  rw [h.range_eq, mul_div_assoc]
  have := h.inside_iff hl x
  rw [h.lo] at this ⊢
  simp only [this, lin_scale _ _ _ _ hl]

/-- C148: the additive correction is a pure number. -/
theorem additiveAt_eq (x : ℝ) : t.additiveAt (l * x + a) = s.additiveAt x := by
  unfold Line.additiveAt
  rw [h.fromCoarse_eq hl, h.size_eq hl, h.step_eq hl, h.additive_eq hl hε]
  simp only [h.coarse_eq, h.lo, lin_scale _ _ _ _ hl]

/-- C148: the multiplicative correction depends on the unit of length by a constant inside of the range. Outside of it
there is none. -/
theorem multiplicativeAt_eq (hs : s.lo < s.hi) (hb : 0 < s.bw) (x : ℝ) :
    t.multiplicativeAt (l * x + a) = if s.lo ≤ x ∧ x ≤ s.hi then s.multiplicativeAt x + Real.log l else 0 := by
  have hsize := s.size_ge
  have hstep := s.step_pos hs
  have hpos : ∀ m : Nat, m < 101 → 0 < lin s.lo s.step s.size s.smooth (s.coarse m) := by
    intro m hm
    have hm' : (m : ℝ) ≤ 100 := by exact_mod_cast (by omega : m ≤ 100)
    have h0 : (0 : ℝ) ≤ m := by positivity
    have hc : 0 < (s.hi - s.lo) / 100 := by linarith
    have hend : s.lo + ((s.size : ℝ) - 1) * s.step = s.hi := by
      unfold Line.step
      have : (501 : ℝ) ≤ s.size := by exact_mod_cast hsize
      rw [mul_div_cancel₀ _ (by linarith : (s.size : ℝ) - 1 ≠ 0)]
      ring
    refine lin_pos _ _ hstep _ (by omega) _ (fun j hj => s.smooth_pos hs hb j hj) _ ?_ ?_
    · unfold Line.coarse; nlinarith
    · rw [hend]; unfold Line.coarse; nlinarith
  by_cases hx : s.lo ≤ x ∧ x ≤ s.hi
  · rw [if_pos hx]
    unfold Line.multiplicativeAt
    rw [h.fromCoarse_eq hl]
    unfold Line.fromCoarse
    rw [if_pos hx, if_pos hx, ← lin_shift]
    refine lin_congr _ _ _ _ _ _ (by norm_num) fun m hm => ?_
    rw [h.size_eq hl, h.step_eq hl, funext (h.smooth_eq hl hε), h.coarse_eq, h.lo, lin_scale _ _ _ _ hl, lin_smul,
      Real.log_div (hpos m hm).ne' hl.ne']
    ring
  · rw [if_neg hx]
    unfold Line.multiplicativeAt Line.fromCoarse
    rw [if_neg ((h.inside_iff hl x).not.mpr hx)]

end Spec.Line.ConvertedTo

variable (U : Units 1) {R : Type}

theorem lineOf_units {c c' : LdCfg ℝ 1} {o o' : Dict (OptVal ℝ)} (lo hi : ℝ)
    (he : ∀ x, c'.pot.energy (U.pos x) = U.energy (c.pot.energy x)) (hkt : c'.kt = U.energyFactor * c.kt)
    (hb : bandwidthOf o' 0 = U.length * bandwidthOf o 0) :
    (lineOf c o lo hi).ConvertedTo U.length (U.origin 0) U.energyFactor U.zero
      (lineOf c' o' (U.length * lo + U.origin 0) (U.length * hi + U.origin 0)) where
  lo := rfl
  hi := rfl
  bw := hb
  kt := hkt
  energy := fun x => by
    have := he (fun _ => x)
    unfold Units.energy at this
    show c'.pot.energy _ = U.energyFactor * c.pot.energy _ + U.zero
    rw [← this]
    congr 1
    funext k
    rw [Subsingleton.elim k 0]
    rfl

/-- C148: the corrections of two systems in one dimension which are the same in different units. The additive one is the
same number. The multiplicative one is larger by the logarithm of the unit of length inside of the range, and zero in
both outside. -/
theorem correction_units_line (w : World R) (hw : LinearGriddata w) {c c' : LdCfg ℝ 1} {o o' : Dict (OptVal ℝ)} (lo hi : ℝ)
    (hr : c.pot.ranges = [(lo, hi)]) (hr' : c'.pot.ranges = [(U.length * lo + U.origin 0, U.length * hi + U.origin 0)])
    (h : lo < hi) (hbw : 0 < bandwidthOf o 0)
    (he : ∀ x, c'.pot.energy (U.pos x) = U.energy (c.pot.energy x)) (hkt : c'.kt = U.energyFactor * c.kt)
    (hb : bandwidthOf o' 0 = U.length * bandwidthOf o 0) (hv : variantOf o' = variantOf o)
    (f f' : (Fin 1 → ℝ) → ℝ) (hf : IsCorrection w c o f) (hf' : IsCorrection w c' o' f') (x : Fin 1 → ℝ) :
    (variantOf o = .add → f' (U.pos x) = f x) ∧
    (variantOf o = .mult → (lo ≤ x 0 ∧ x 0 ≤ hi → f' (U.pos x) = f x + Real.log U.length) ∧
      (¬ (lo ≤ x 0 ∧ x 0 ≤ hi) → f' (U.pos x) = 0 ∧ f x = 0)) := by
  have hl := U.length_pos
  have hc := lineOf_units U lo hi he hkt hb
  rw [correction_line w hw c o rfl lo hi hr h hbw f hf x 0,
    correction_line w hw c' o' rfl _ _ hr' (by linarith [mul_lt_mul_of_pos_left h hl]) (by rw [hb]; exact mul_pos hl hbw)
      f' hf' (U.pos x) 0]
  unfold lineCorrection
  rw [hv]
  have e : U.pos x 0 = U.length * x 0 + U.origin 0 := rfl
  refine ⟨fun ha => ?_, fun hm => ⟨fun hx => ?_, fun hx => ?_⟩⟩
  · rw [ha, e]
    exact hc.additiveAt_eq hl U.energyFactor_pos _
  · rw [hm, e]
    simp only
    rw [hc.multiplicativeAt_eq hl U.energyFactor_pos h hbw]
    exact if_pos hx
  · rw [hm, e]
    simp only
    rw [hc.multiplicativeAt_eq hl U.energyFactor_pos h hbw]
    refine ⟨if_neg hx, (lineOf c o lo hi).fromCoarse_outside _ _ ?_⟩
    show x 0 < lo ∨ hi < x 0
    by_contra hcon
    push Not at hcon
    exact hx hcon

/-- C148: finished runs in one dimension with the Bussi-Parinello thermostat and any variant of birth-death, for linear
interpolation of the corrections. With the multiplicative variant the boundary condition has to be reflective. -/
theorem main_units_line {w : World R} (hw : LinearGriddata w) {file file' : Option (List Section)} {cfg cfg' : SimCfg 1}
    {sim sim' : Sim 1 R} {config config' : Input ℝ} {n n' : Nat} {s0 s0' : Sim 1 R}
    (hr : FinishedRun w file ⟨1, cfg, sim⟩ config n s0) (hr' : FinishedRun w file' ⟨1, cfg', sim'⟩ config' n' s0')
    (lo hi : ℝ) (hrange : cfg.ld.pot.ranges = [(lo, hi)])
    (hrange' : cfg'.ld.pot.ranges = [(U.length * lo + U.origin 0, U.length * hi + U.origin 0)]) (hlt : lo < hi)
    (he : ∀ x, cfg'.ld.pot.energy (U.pos x) = U.energy (cfg.ld.pot.energy x))
    (hbc : config'.potential.get? "boundary-condition" = config.potential.get? "boundary-condition")
    (hty : StrOpt config.ld "type" "bussi-parinello") (hty' : StrOpt config'.ld "type" "bussi-parinello")
    (hdt : floatOf config'.ld "timestep" = U.time * floatOf config.ld "timestep")
    (hfr : floatOf config'.ld "friction" = floatOf config.ld "friction" / U.time)
    (hkt : floatOf config'.ld "kt" = U.energyFactor * floatOf config.ld "kt")
    (hseed : config'.ld.get? "seed" = config.ld.get? "seed")
    (hwalk : s0'.particles = s0.particles.map U.particle)
    (hbd : Option.Rel U.ConvertsBd config.birthDeath config'.birthDeath)
    (hmult : ∀ o, config.birthDeath = some o → variantOf o = .mult → cfg.ld.pot.bc = some .reflective)
    (t : Nat) (ht : t ≤ n) (ht' : t ≤ n') :
    hr'.path t = (hr.path t).map U.particle ∧
    ∃ y y', dynSteps w cfg.kind cfg.ld cfg.bd t s0.dyn = .ok y ∧
      dynSteps w cfg'.kind cfg'.ld cfg'.bd t s0'.dyn = .ok y' ∧ y'.bd = y.bd ∧ y'.ldRng = y.ldRng := by
  have hpot : U.Converts cfg.ld.pot cfg'.ld.pot := by
    refine potential_units U hr hr' he (fun i => ?_) hbc
    rw [Subsingleton.elim i 0, hrange, hrange']
    rfl
  obtain ⟨e1, e2, e3, e4, _⟩ := main_units_bussi U hr hr' hty hty' hpot hdt hfr hkt
  have key : ∀ (S : (Fin 1 → ℝ) → Prop),
      (∀ o, config.birthDeath = some o → variantOf o = .mult → ∀ x, S x → lo ≤ x 0 ∧ x 0 ≤ hi) →
      ∀ o o' f f', config.birthDeath = some o → config'.birthDeath = some o' →
      IsCorrection w cfg.ld o f → IsCorrection w cfg'.ld o' f' →
      (variantOf o = .add → ∀ x, S x → f' (U.pos x) = f x) ∧
      (variantOf o = .mult → ∃ a, ∀ x, S x → f' (U.pos x) = f x + a) := by
    intro S hS o o' f f' ho ho' hf hf'
    rw [ho, ho'] at hbd
    cases hbd with
    | some hc =>
    obtain ⟨_, _, _, _, _, hfacts⟩ := (finished_bd hr).2 o ho
    have := correction_units_line U w hw lo hi hrange hrange' hlt (hfacts.bandwidth 0 Nat.one_pos) he e3
      (hc.bandwidth 0 Nat.one_pos) hc.variant f f' hf hf'
    exact ⟨fun hv x _ => (this x).1 hv, fun hv => ⟨Real.log U.length, fun x hx => ((this x).2 hv).1 (hS o ho hv x hx)⟩⟩
  by_cases hm : ∃ o, config.birthDeath = some o ∧ variantOf o = .mult
  · obtain ⟨o, ho, hv⟩ := hm
    have hS := stepsInto_reflective w cfg.kind cfg.ld (hmult o ho hv) (by rw [hrange]; simp [hlt.le])
    refine main_units U hr hr' e1 e2 e3 e4 hseed hwalk hbd _ hS (key _ (fun _ _ _ x hx => ?_)) t ht ht'
    exact hx 0 (lo, hi) (by rw [hrange]; rfl)
  · refine main_units U hr hr' e1 e2 e3 e4 hseed hwalk hbd _ (stepsInto_all w _ _) (key _ (fun o ho hv => ?_)) t ht ht'
    exact absurd ⟨o, ho, hv⟩ hm

/-- C148 fails for the multiplicative variant without a boundary condition: a walker outside of the range has no
correction in any units, and the rate of a second one inside of it depends on the unit of length. -/
theorem multiplicative_units_false {s t : Line} (h : s.ConvertedTo U.length (U.origin 0) U.energyFactor U.zero t)
    (hs : s.lo < s.hi) (hb : 0 < s.bw) (q : Fin 2 → ℝ) (hx : s.lo ≤ q 0 ∧ q 0 ≤ s.hi) (hy : ¬ (s.lo ≤ q 1 ∧ q 1 ≤ s.hi))
    (ene : Fin 2 → ℝ) :
    calcBetas ⟨fun _ => t.bw, t.kt, .mult, fun p : Fin 1 → ℝ => t.multiplicativeAt (p 0)⟩
        (fun i => U.pos (fun _ => q i)) (fun i => U.energy (ene i)) 0
      = (calcBetas ⟨fun _ => s.bw, s.kt, .mult, fun p : Fin 1 → ℝ => s.multiplicativeAt (p 0)⟩
        (fun i _ => q i) ene 0).map (· + Real.log U.length / 2) := by
  have hl := U.length_pos
  have hbt : 0 < t.bw := by rw [h.bw]; exact mul_pos hl hb
  rw [rates_eq _ (fun _ => hbt), rates_eq _ (fun _ => hb)]
  have hk := kde_units U (fun _ => s.bw) (fun (i : Fin 2) _ => q i)
  have hp := kde_pos (fun _ : Fin 1 => s.bw) (fun _ => hb) (fun (i : Fin 2) _ => q i)
  have hm := h.multiplicativeAt_eq hl U.energyFactor_pos hs hb
  have hy0 : s.multiplicativeAt (q 1) = 0 := by
    refine s.fromCoarse_outside _ _ ?_
    by_contra hcon
    push Not at hcon
    exact hy hcon
  have r0 : rawRate ⟨fun _ => t.bw, t.kt, .mult, fun p : Fin 1 → ℝ => t.multiplicativeAt (p 0)⟩
      (fun i => U.pos (fun _ => q i)) (fun i => U.energy (ene i)) 0
      = rawRate ⟨fun _ => s.bw, s.kt, .mult, fun p : Fin 1 → ℝ => s.multiplicativeAt (p 0)⟩ (fun i _ => q i) ene 0 := by
    unfold rawRate
    simp only [h.bw, hk]
    rw [Real.log_div (hp 0).ne' (by positivity)]
    have := hm (q 0)
    rw [if_pos hx] at this
    simp only [Units.pos, if_true, this, pow_one]
    ring
  have r1 : rawRate ⟨fun _ => t.bw, t.kt, .mult, fun p : Fin 1 → ℝ => t.multiplicativeAt (p 0)⟩
      (fun i => U.pos (fun _ => q i)) (fun i => U.energy (ene i)) 1
      = rawRate ⟨fun _ => s.bw, s.kt, .mult, fun p : Fin 1 → ℝ => s.multiplicativeAt (p 0)⟩ (fun i _ => q i) ene 1
        - Real.log U.length := by
    unfold rawRate
    simp only [h.bw, hk]
    rw [Real.log_div (hp 1).ne' (by positivity)]
    have := hm (q 1)
    rw [if_neg hy] at this
    simp only [Units.pos, if_true, this, hy0, pow_one]
    ring
  unfold centred
  simp only [Fin.sum_univ_two, r0, r1]
  rw [WithBot.map_coe]
  congr 1
  push_cast
  ring

end

end Bdld
