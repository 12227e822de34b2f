import Verif.Lemmas.RoundingRates
import Verif.Props.RoundingEvents
import Verif.Props.Rates

/-
C111: rounding errors of the rates and probabilities of the birth-death algorithm.
-/

set_option linter.unusedSectionVars false

namespace Bdld
open Spec

theorem forall₂_ofFn {α β : Type} {S : α → β → Prop} {n : Nat} {v : Fin n → α} {w : Fin n → β} (h : ∀ i, S (v i) (w i)) :
    List.Forall₂ S (List.ofFn v) (List.ofFn w) := by
  rw [List.forall₂_iff_get]
  exact ⟨by simp, fun i h1 h2 => by simpa using h ⟨i, by simpa using h1⟩⟩

section
variable {F : Type} [Add F] [Sub F] [Mul F] [Div F] [Neg F] [LT F] [DecidableLT F] {A : Rounding F} {f : FloatFns F}
  (hf : FnContract A f) {d n : Nat}

/-- Constants, interpolated correction and number of walkers agree with the exact ones within the bounds. -/
structure NearRateCfg (A : Rounding F) (f : FloatFns F) (B : RateBnd) (c : FloatRateCfg F d) (rc : RateCfg d) (dt rateFac : ℝ)
    (n : Nat) (e : ℝ) : Prop where
  dt_nonneg : 0 ≤ dt
  rateFac_nonneg : 0 ≤ rateFac
  height : ∀ k, Near A B.height (c.height k) (1 / (rc.bw k * Real.sqrt (2 * Real.pi)))
  width : ∀ k, Near A B.width (c.width k) (2 * rc.bw k ^ 2)
  widthLo : ∀ k, B.widthLo ≤ 2 * rc.bw k ^ 2
  pref : Near A B.pref c.pref (1 / ((2 * Real.pi) ^ ((d : ℝ) / 2) * ∏ k, rc.bw k))
  invKt : Near A B.invKt c.invKt (1 / rc.kt)
  dt : Near A B.dt c.dt dt
  rateFac : Near A B.rateFac c.rateFac rateFac
  variant : c.variant = rc.variant
  approx : ∀ x y, (∀ k, Near A ⟨e, B.X⟩ (x k) (y k)) → Near A (B.approx e) (c.approx x) (rc.approx y)
  lo : B.lo ≤ calcKernel rc.bw 0 / n
  log : -B.M ≤ Real.log B.lo ∧ Real.log (calcKernel rc.bw 0) ≤ B.M
  ofNat : A.fin (f.ofNat n) ∧ A.val (f.ofNat n) = n
  bw : ∀ k, 0 < rc.bw k
  dim : 0 < d

include hf in
omit [DecidableLT F] in
theorem near_mean_ofFn {b : Bnd} {v : Fin n → F} {w : Fin n → ℝ} (h : ∀ i, Near A b (v i) (w i)) (hn : 0 < n)
    (hnat : A.fin (f.ofNat n) ∧ A.val (f.ofNat n) = n) (hΩ : b.sumTop A.u n ≤ A.Ω) (hΩ' : (b.sum A.u n).divTop n ≤ A.Ω) :
    Near A ((b.sum A.u n).div A.u A.η n) (meanF f (List.ofFn v)) ((∑ i, w i) / n) := by
  have hl : (List.ofFn v).length = n := by simp
  have := near_mean hf (forall₂_ofFn h) (by rw [hl]; exact hn) (by rw [hl]; exact hnat) (by rw [hl]; exact hΩ) (by rw [hl]; exact hΩ')
  rw [hl, List.sum_ofFn] at this
  exact this

variable {B : RateBnd} {c : FloatRateCfg F d} {rc : RateCfg d} {dt rateFac e : ℝ}
  (hc : NearRateCfg A f B c rc dt rateFac n e) (hfit : B.Fits A.u A.η hf.ex hf.lg d n c.variant e A.Ω)
include hc hfit

omit [DecidableLT F] in
theorem near_sq {x y : Fin d → F} {x' y' : Fin d → ℝ} (hx : ∀ k, Near A ⟨e, B.X⟩ (x k) (x' k))
    (hy : ∀ k, Near A ⟨e, B.X⟩ (y k) (y' k)) (k : Fin d) :
    Near A (B.sq A.u A.η e) ((x k - y k) * (x k - y k)) ((x' k - y' k) * (x' k - y' k)) :=
  near_mul (near_sub (hx k) (hy k) hfit.dist) (near_sub (hx k) (hy k) hfit.dist) hfit.sq

/-- The Gaussian in one direction. -/
theorem near_gauss {x y : Fin d → F} {x' y' : Fin d → ℝ} (hx : ∀ k, Near A ⟨e, B.X⟩ (x k) (x' k))
    (hy : ∀ k, Near A ⟨e, B.X⟩ (y k) (y' k)) (k : Fin d) :
    Near A (B.gauss A.u A.η hf.ex e) (gaussF f c x y k) (normalPdf (rc.bw k) (x' k - y' k)) := by
  have h1 := near_quot (near_neg (near_sq hf hc hfit hx hy k)) (hc.width k) (hc.widthLo k) hfit.width hfit.arg
  have h2 : -((x' k - y' k) * (x' k - y' k)) / (2 * rc.bw k ^ 2) = -((x' k - y' k) ^ 2 / (2 * rc.bw k ^ 2)) := by ring
  rw [h2] at h1
  have h3 := near_exp hf h1 (by have := hc.bw k; rw [neg_nonpos]; positivity) hfit.exp
  exact near_mul (hc.height k) h3 hfit.gauss

/-- The kernel, both variants. -/
theorem near_kernel {pos : Fin n → Fin d → F} {pos' : Fin n → Fin d → ℝ} (hp : ∀ i k, Near A ⟨e, B.X⟩ (pos i k) (pos' i k))
    (i j : Fin n) : Near A (B.kernel A.u A.η hf.ex d n e)
      (if n ≤ 10000 then gaussMatrixF f c pos i j else kernelF f c (fun k => pos j k - pos i k)) (kernel rc.bw (pos' j - pos' i)) := by
  unfold RateBnd.kernel
  by_cases hn : n ≤ 10000
  · rw [if_pos hn, if_pos hn]
    have key : ∀ (v : Fin d → F) (w : Fin d → ℝ), (∀ k, Near A (B.gauss A.u A.η hf.ex e) (v k) (w k)) → 
        Near A ((B.gauss A.u A.η hf.ex e).prod A.u A.η d) (prodF f (List.ofFn v)) (∏ k, w k) := by
      intro v w h
      have hl : (List.ofFn v).length = d := by simp
      have := near_prod (f := f) (forall₂_ofFn h) (by rw [hl]; exact hc.dim) (by rw [hl]; exact hfit.prod)
      rw [hl, List.prod_ofFn] at this
      exact this
    unfold gaussMatrixF
    split
    · next h =>
      subst h
      rw [sub_self]
      refine key _ _ fun k => ?_
      have h0 : normalPdf (rc.bw k) ((0 : Fin d → ℝ) k) = 1 / (rc.bw k * Real.sqrt (2 * Real.pi)) := by
        simp [normalPdf]
      rw [h0]
      have hh := hc.height k
      have he : 0 ≤ (B.arg A.u A.η e).err := (abs_nonneg _).trans
        (near_quot (near_neg (near_sq hf hc hfit (hp i) (hp i) k)) (hc.width k) (hc.widthLo k) hfit.width hfit.arg).2.1
      have hm : 0 ≤ B.height.mag := (abs_nonneg _).trans hh.2.2
      have hr : 0 ≤ B.height.err := (abs_nonneg _).trans hh.2.1
      have hx := hf.ex_nonneg
      have hu := A.u_nonneg
      have hη := A.η_nonneg
      refine near_mono hh ?_ (by simpa [RateBnd.gauss, Bnd.mul, Bnd.exp] using hh.2.2)
      simp only [RateBnd.gauss, Bnd.mul, Bnd.exp]
      nlinarith [mul_nonneg hm (by linarith : 0 ≤ 3 * (B.arg A.u A.η e).err + hf.ex),
        mul_nonneg hr (by linarith : 0 ≤ 3 * (B.arg A.u A.η e).err + hf.ex),
        mul_nonneg hu (mul_nonneg (by linarith : 0 ≤ B.height.mag + B.height.err)
          (by linarith : 0 ≤ 1 + (3 * (B.arg A.u A.η e).err + hf.ex)))]
    · split
      · rw [← kernel_symm, neg_sub]
        exact key _ _ (near_gauss hf hc hfit (hp i) (hp j))
      · exact key _ _ (near_gauss hf hc hfit (hp j) (hp i))
  · rw [if_neg hn, if_neg hn]
    obtain ⟨m1, m2, m3⟩ := hfit.manual (by omega)
    have h1 : ∀ k, Near A (B.arg A.u A.η e) ((pos j k - pos i k) * (pos j k - pos i k) / c.width k)
        ((pos' j k - pos' i k) * (pos' j k - pos' i k) / (2 * rc.bw k ^ 2)) := fun k =>
      near_quot (near_sq hf hc hfit (hp j) (hp i) k) (hc.width k) (hc.widthLo k) hfit.width hfit.arg
    have hl : (List.ofFn fun k => (pos j k - pos i k) * (pos j k - pos i k) / c.width k).length = d := by simp
    have h2 := near_sum hf (forall₂_ofFn h1) (by rw [hl]; exact hc.dim) (by rw [hl]; exact m1)
    rw [hl, List.sum_ofFn] at h2
    have h3 := near_exp hf (near_neg h2) (by
      rw [neg_nonpos]
      refine Finset.sum_nonneg fun k _ => ?_
      have := hc.bw k
      exact div_nonneg (mul_self_nonneg _) (by positivity)) m2
    have h4 := near_mul hc.pref h3 m3
    rw [← calcKernel_eq]
    unfold kernelF calcKernel
    have e1 : ∀ k, (pos' j - pos' i) k ^ 2 = (pos' j k - pos' i k) * (pos' j k - pos' i k) := fun k => by
      rw [Pi.sub_apply]
      ring
    simp only [e1]
    exact h4

theorem near_density {pos : Fin n → Fin d → F} {pos' : Fin n → Fin d → ℝ} (hp : ∀ i k, Near A ⟨e, B.X⟩ (pos i k) (pos' i k))
    (j : Fin n) : Near A (B.density A.u A.η hf.ex d n e) (densityF f c pos j) (kde rc.bw pos' (pos' j)) := by
  have h := near_mean_ofFn hf (fun i => near_kernel hf hc hfit hp i j) j.pos hc.ofNat hfit.sum hfit.density
  unfold densityF kde
  by_cases hn : n ≤ 10000
  · simp only [hn, if_true] at h ⊢
    exact h
  · simp only [hn, if_false] at h ⊢
    exact h

omit hfit in
theorem density_bounds (pos' : Fin n → Fin d → ℝ) (j : Fin n) (hlo : 0 < B.lo) :
    B.lo ≤ kde rc.bw pos' (pos' j) ∧ |Real.log (kde rc.bw pos' (pos' j))| ≤ B.M := by
  have h1 := (density_lower_bound pos' rc.bw hc.bw j).1
  rw [(density_agree pos' rc.bw).2] at h1
  have h2 := hc.lo.trans h1
  have hn : (0 : ℝ) < n := by
    have := j.pos
    exact_mod_cast this
  have h3 : kde rc.bw pos' (pos' j) ≤ calcKernel rc.bw 0 := by
    unfold kde
    rw [div_le_iff₀ hn]
    have : ∀ i ∈ Finset.univ, kernel rc.bw (pos' j - pos' i) ≤ calcKernel rc.bw 0 := by
      intro i _
      rw [← calcKernel_eq]
      by_cases hx : pos' j - pos' i = 0
      · rw [hx]
      · exact ((kernel_shape rc.bw hc.bw _).2.2 hx).le
    have := Finset.sum_le_card_nsmul _ _ _ this
    rw [Finset.card_univ, Fintype.card_fin, nsmul_eq_mul] at this
    linarith
  refine ⟨h2, abs_le.2 ⟨?_, ?_⟩⟩
  · exact hc.log.1.trans (Real.log_le_log hlo h2)
  · exact (Real.log_le_log (hlo.trans_le h2) h3).trans hc.log.2

/-- **C111.** Error of the computed rates. -/
theorem near_rates {pos : Fin n → Fin d → F} {pos' : Fin n → Fin d → ℝ} (hp : ∀ i k, Near A ⟨e, B.X⟩ (pos i k) (pos' i k))
    {ene : Fin n → F} {ene' : Fin n → ℝ} (he : ∀ i, Near A (B.energy e) (ene i) (ene' i)) (i : Fin n) :
    CloseRate A (B.rate A.u A.η hf.ex hf.lg d n c.variant e) (betasF f c pos ene i) (calcBetas rc pos' ene' i) := by
  rw [rates_eq rc hc.bw]
  refine ⟨_, rfl, ?_⟩
  have hlo : 0 < B.lo := ((abs_nonneg _).trans (near_density hf hc hfit hp i).2.1).trans_lt hfit.log
  have hraw : ∀ (v : Fin n → F), (v = fun i => f.log (densityF f c pos i) +
      if c.variant = .mult then c.approx (pos i) else ene i * c.invKt) → 
      ∀ i, Near A (B.raw A.u A.η hf.ex hf.lg d n c.variant e) (v i) (rawRate rc pos' ene' i) := by
    rintro v rfl i
    have hb := density_bounds hc pos' i hlo
    have h1 := near_log hf (near_density hf hc hfit hp i) hb.1 hfit.log hb.2
    refine near_add h1 ?_ hfit.raw
    unfold RateBnd.extra
    rw [← hc.variant]
    by_cases hv : c.variant = .mult
    · simp only [if_pos hv]
      exact hc.approx _ _ (hp i)
    · simp only [if_neg hv]
      rw [div_eq_mul_one_div]
      exact near_mul (he i) hc.invKt (hfit.energy hv)
  have hcen : ∀ (v : Fin n → F), (v = fun i => f.log (densityF f c pos i) +
      if c.variant = .mult then c.approx (pos i) else ene i * c.invKt) → 
      ∀ i, Near A (B.centred A.u A.η hf.ex hf.lg d n c.variant e) (centreF f v i) (centred (rawRate rc pos' ene') i) := by
    intro v hv i
    have h := hraw v hv
    have hfilter : (List.ofFn v).filter (fun x => !f.isInf x) = List.ofFn v := by
      rw [List.filter_eq_self]
      intro x hx
      obtain ⟨k, rfl⟩ := (List.mem_ofFn' v x).1 hx
      rw [hf.isInf _ (h k).1]
      rfl
    unfold centreF centred
    rw [hfilter]
    exact near_sub (h i) (near_mean_ofFn hf h i.pos hc.ofNat hfit.total hfit.mean) hfit.centred
  unfold betasF RateBnd.rate
  rw [← hc.variant]
  cases hv : c.variant with
  | orig =>
    have h := hcen _ rfl i
    simp only [hv, reduceCtorEq, if_false] at h ⊢
    rw [add_zero]
    exact h
  | mult =>
    have h := hcen _ rfl i
    simp only [hv, reduceCtorEq, if_false, if_true] at h ⊢
    rw [add_zero]
    exact h
  | add =>
    have h := hcen _ rfl i
    have h2 := hfit.add hv
    simp only [hv, reduceCtorEq, if_false, if_true] at h h2 ⊢
    exact near_add h (hc.approx _ _ (hp i)) h2

omit [DecidableLT F] in
/-- **C111.** Error of the computed probabilities. -/
theorem near_prob {b : F} {x : ℝ} (h : Near A (B.rate A.u A.η hf.ex hf.lg d n c.variant e) b x) :
    Near A (B.prob A.u A.η hf.ex hf.lg d n c.variant e) (probF f c b) (acceptProb dt rateFac x) := by
  have h1 := near_mul (near_mul (near_neg (near_abs hf h)) hc.dt hfit.prob1) hc.rateFac hfit.prob2
  have h2 := near_exp hf h1 (by
    have := mul_nonneg (mul_nonneg (abs_nonneg x) hc.dt_nonneg) hc.rateFac_nonneg
    linarith) hfit.prob3
  have h3 : Near A (Bnd.exact 1) f.one 1 := ⟨hf.one.1, by rw [hf.one.2]; simp [Bnd.exact], by simp [Bnd.exact]⟩
  exact near_sub h3 h2 hfit.prob4

/-- **C111.** The computed birth-death algorithm approximates the exact one in the sense of C110. -/
theorem rateBound_float {P P' : Type} (recalc : Bool) (pos : P → Fin d → F) (energy : P → F) (view : P' → Walker d) {S : P → P' → Prop}
    (hS : ∀ p q, S p q → (∀ k, Near A ⟨e, B.X⟩ (pos p k) ((view q).pos k)) ∧ Near A (B.energy e) (energy p) (view q).energy) :
    RateBound A (floatBdCfg f c recalc pos energy) rc dt rateFac recalc view S n
      (B.rate A.u A.η hf.ex hf.lg d n c.variant e) (B.prob A.u A.η hf.ex hf.lg d n c.variant e).err where
  mode := rfl
  rates := by
    intro ps qs hn h
    have hl := h.length_eq
    have hl' : ps.length = n := hl.trans hn
    subst hn
    have hg := (List.forall₂_iff_get.1 h).2
    simp only [floatBdCfg, realBdCfg]
    rw [List.forall₂_iff_get]
    refine ⟨by simpa using hl, fun i h1 h2 => ?_⟩
    have hi : i < ps.length := by simpa using h1
    have hi' : i < qs.length := by omega
    have cast : ∀ (m : Nat) (hm : m = qs.length) (x : Fin m → Fin d → F) (y : Fin m → F) (h1 : i < m),
        betasF f c x y ⟨i, h1⟩ = betasF f c (fun j => x (Fin.cast hm.symm j)) (fun j => y (Fin.cast hm.symm j)) ⟨i, hi'⟩ := by
      intro m hm x y h1
      subst hm
      rfl
    simp only [List.get_eq_getElem, List.getElem_ofFn]
    rw [cast _ hl]
    refine near_rates hf hc hfit (fun j k => ?_) (fun j => ?_) ⟨i, hi'⟩
    · exact (hS _ _ (hg j (by omega) j.2)).1 k
    · exact (hS _ _ (hg j (by omega) j.2)).2
  gt0 := fun b hb => by
    simp only [floatBdCfg, decide_eq_true_eq]
    rw [A.lt _ _ hf.zero.1 hb, hf.zero.2]
  lt0 := fun b hb => by
    simp only [floatBdCfg, decide_eq_true_eq]
    rw [A.lt _ _ hb hf.zero.1, hf.zero.2]
  accept := by
    rintro r b _ hr ⟨x, rfl, hx⟩ hm
    have h := near_prob hf hc hfit hx
    simp only [floatBdCfg]
    rw [hf.le _ _ hr h.1]
    have h1 := abs_le.1 h.2.1
    rcases lt_abs.1 hm with hm | hm
    · exact ⟨fun _ => by linarith, fun _ => by linarith⟩
    · exact ⟨fun _ => by linarith, fun _ => by linarith⟩

end

/-- **C110, C111.** A whole computed run with computed rates: same events, counters and generators as the exact run, positions and
momenta within the error bound, if no decision of the exact run is closer than the error bounds of rates and probabilities. The bounds
of the rates may be evaluated at any error `ε` not below the errors of the positions. -/
theorem float_run_rounding {F : Type} [Add F] [Sub F] [Mul F] [Div F] [Neg F] [LT F] [DecidableLT F] {A : Rounding F} {f : FloatFns F}
    (hf : FnContract A f) {d : Nat} {L : LdBnd} {kind : LdKind} {ld : LdCfg F d} {ld' : LdCfg ℝ d} (hld : NearCfg A L kind ld ld')
    {R : Type} (normal : NormalOps R F d) {ops : RngOps R F} {ops' : RngOps R ℝ} (hs : SameNumbers ops ops' A.val) (hops : ops'.Lawful)
    (hrand : ∀ n r, ∀ x ∈ (ops.random n r).1, A.fin x) {B : RateBnd} {c : FloatRateCfg F d} {rc : RateCfg d} {dt rateFac ε : ℝ}
    (recalc : Bool) (stride : Nat) (x : Walkers F d R) (x' : Walkers ℝ d R)
    (hc : NearRateCfg A f B c rc dt rateFac x'.particles.length ε)
    (hfit : B.Fits A.u A.η hf.ex hf.lg d x'.particles.length c.variant ε A.Ω) (hX : B.X = L.X)
    (hene : ∀ p q, (∀ k, Near A ⟨ε, B.X⟩ (p k) (q k)) → Near A (B.energy ε) (ld.pot.evaluate p).1 (ld'.pot.evaluate q).1)
    (h1 : x.ldRng = x'.ldRng) (h2 : x.bdRng = x'.bdRng) (h3 : x.stats = x'.stats)
    (hn : ∀ j k, A.fin (draw normal x.ldRng j k) ∧ |A.val (draw normal x.ldRng j k)| ≤ L.noise.mag) (hn0 : 0 ≤ L.noise.err) (e : ℝ × ℝ)
    (h0 : List.Forall₂ (NearWalker A L kind ld ld' e) x.particles x'.particles) (n : Nat)
    (y' : List (List (Nat × Nat)) × Walkers ℝ d R)
    (hy : walkersRun kind ld' (valNormal A normal) (realBdCfg rc dt rateFac recalc fun p => ⟨p.pos, p.energy⟩) ops' stride n x' = .ok y')
    (hE : ∀ m ≤ n, ((L.next kind A.u A.η)^[m] e).1 ≤ L.E ∧ ((L.next kind A.u A.η)^[m] e).1 ≤ ε)
    (hfit' : ∀ m < n, L.fits kind A.u A.η A.Ω ((L.next kind A.u A.η)^[m] e))
    (hin : ∀ m < n, ∀ t z,
      walkersRun kind ld' (valNormal A normal) (realBdCfg rc dt rateFac recalc fun p => ⟨p.pos, p.energy⟩) ops' stride m x' = .ok t →
      LdState.run kind ld' (valNormal A normal) ⟨t.2.particles, t.2.ldRng⟩ = .ok z →
        (∀ q ∈ z.particles, Inside L kind q) ∧
        (stride ∣ m + 1 → ∀ w, doBirthDeath (realBdCfg rc dt rateFac recalc fun p => ⟨p.pos, p.energy⟩) ops'
            ⟨z.particles, t.2.bdRng, t.2.stats⟩ = .ok w →
          ∀ qs, (qs = z.particles ∨ recalc = true ∧ Visited z.particles w.1 qs) →
            Clear (B.rate A.u A.η hf.ex hf.lg d x'.particles.length c.variant ε).err
              (B.prob A.u A.η hf.ex hf.lg d x'.particles.length c.variant ε).err dt rateFac
              ((realBdCfg rc dt rateFac recalc fun p => ⟨p.pos, p.energy⟩).calcBetas qs)
              (ops'.random z.particles.length t.2.bdRng).1)) :
    ∃ y, walkersRun kind ld normal (floatBdCfg f c recalc (fun p => p.pos) (fun p => p.energy)) ops stride n x = .ok y ∧
      y.1 = y'.1 ∧ y.2.ldRng = y'.2.ldRng ∧ y.2.bdRng = y'.2.bdRng ∧ y.2.stats = y'.2.stats ∧
      List.Forall₂ (fun p q => ∀ k, |A.val (p.pos k) - q.pos k| ≤ ((L.next kind A.u A.η)^[n] e).1 ∧
        (kind = .bussi → |A.val (p.mom k) - q.mom k| ≤ ((L.next kind A.u A.η)^[n] e).2)) y.2.particles y'.2.particles := by
  have hb : ∀ m < n, stride ∣ m + 1 → RateBound A (floatBdCfg f c recalc (fun p : LdParticle F d => p.pos) (fun p => p.energy)) rc dt
      rateFac recalc (fun p : LdParticle ℝ d => ⟨p.pos, p.energy⟩) (NearWalker A L kind ld ld' ((L.next kind A.u A.η)^[m + 1] e))
      x'.particles.length (B.rate A.u A.η hf.ex hf.lg d x'.particles.length c.variant ε)
      (B.prob A.u A.η hf.ex hf.lg d x'.particles.length c.variant ε).err := by
    intro m hm _
    refine rateBound_float hf hc hfit recalc _ _ _ fun p q hpq => ?_
    have hp : ∀ k, Near A ⟨ε, B.X⟩ (p.pos k) (q.pos k) := fun k => by
      rw [hX]
      exact near_mono (hpq.pos k) (hE (m + 1) (by omega)).2 (hpq.pos k).2.2
    refine ⟨hp, ?_⟩
    have h1 := hene _ _ hp
    rw [← congrArg Prod.fst hpq.computed, ← congrArg Prod.fst hpq.exact] at h1
    exact h1
  generalize B.rate A.u A.η hf.ex hf.lg d x'.particles.length c.variant ε = κ at hb hin
  generalize (B.prob A.u A.η hf.ex hf.lg d x'.particles.length c.variant ε).err = π at hb hin
  obtain ⟨y, g1, g2, g3, g4, g5, _, _, g6⟩ := run_rounding hld normal hs hops hrand stride x x' h1 h2 h3 hn hn0 e h0
    (fun _ => κ) (fun _ => π) n y' hy (fun m hm => (hE m hm).1) hfit' hb hin
  exact ⟨y, g1, g2, g3, g4, g5, g6.imp fun p q h k => ⟨(h.pos k).2.1, fun hk => (h.mom hk k).2.1⟩⟩

end Bdld
