import Verif.Lemmas.RoundingPoly
import Verif.Props.Polynomial
import Verif.Props.Rounding
import Verif.Model.LangevinReal

/-
C123: rounding errors of polynomial potentials.
-/

namespace Bdld
open Spec

noncomputable section

section
variable {F : Type} [Add F] [Sub F] [Mul F] [Div F] [Neg F] [LT F] {A : Rounding F} {d : Nat}

/-- What a polynomial potential needs: coefficients and position are finite, the position is inside of `X`, and nothing overflows. -/
structure PolyFits (A : Rounding F) (zero : F) (a : ArrF F d) (X : Fin d → ℝ) : Prop where
  zero : A.fin zero ∧ A.val zero = 0
  shape : ∀ k, 0 < a.shape k
  coeffs : ∀ e ∈ box a.shape, A.fin (a.val e)
  one_le : ∀ k, 1 ≤ X k
  energy : growth A.u a.shape * absPoly a.shape (a.exact A).val X + underflow A.u A.η d a.shape X 0 ≤ A.Ω

/-- Error of the computed force at given numbers: one rounding more than for the energy, of the derivative. -/
def polyForceErr (A : Rounding F) (a : ArrF F d) (X : Fin d → ℝ) (k : Fin d) : ℝ :=
  ((1 + A.u) * growth A.u (polyder (a.exact A) k).shape - 1) * absDer a.shape (a.exact A).val k X +
    underflow A.u A.η d (polyder (a.exact A) k).shape X A.η

/-- The same for the forces; `ofNat` is the conversion of the exponents to floating point numbers. -/
structure PolyForceFits (A : Rounding F) (zero : F) (ofNat : Nat → F) (a : ArrF F d) (X : Fin d → ℝ) : Prop where
  zero : A.fin zero ∧ A.val zero = 0
  shape : ∀ k, 0 < a.shape k
  coeffs : ∀ e ∈ box a.shape, A.fin (a.val e)
  one_le : ∀ k, 1 ≤ X k
  nat : ∀ k, ∀ n < a.shape k, A.fin (ofNat n) ∧ A.val (ofNat n) = n
  force : ∀ k, (1 + A.u) * growth A.u (polyder (a.exact A) k).shape * absDer a.shape (a.exact A).val k X +
    underflow A.u A.η d (polyder (a.exact A) k).shape X A.η ≤ A.Ω

/-- **C123.** The computed energy of a polynomial potential: the error is at most `(1 + u)^(2 n) - 1` times the polynomial with the
absolute values of the coefficients, where `n` is the sum of the numbers of coefficients along the axes, plus the effect of underflow. -/
theorem poly_energy_rounding {zero : F} {a : ArrF F d} {X : Fin d → ℝ} (h : PolyFits A zero a X) (x : Fin d → F)
    (hx : ∀ k, A.fin (x k) ∧ |A.val (x k)| ≤ X k) : A.fin (polyEnergyF zero a x) ∧
      |A.val (polyEnergyF zero a x) - polyEnergy (a.exact A) (fun k => A.val (x k))| ≤
        polyErr A.u A.η a.shape (a.exact A).val X := by
  have h1 := hNear_polyval h.zero d x a h.shape X hx h.one_le 1 0 le_rfl le_rfl (a.exact A).val (fun e => |(a.exact A).val e|)
    (fun e he => ⟨h.coeffs e he, by simp [ArrF.exact], le_rfl⟩) (by rw [mul_one]; exact h.energy)
  rw [mul_one] at h1
  rw [poly_energy (a.exact A) h.shape]
  exact ⟨h1.1, h1.2.1⟩

/-- **C123.** The computed forces. -/
theorem poly_force_rounding {zero : F} {ofNat : Nat → F} {a : ArrF F d} {X : Fin d → ℝ} (h : PolyForceFits A zero ofNat a X)
    (x : Fin d → F) (hx : ∀ k, A.fin (x k) ∧ |A.val (x k)| ≤ X k) (k : Fin d) : A.fin (polyForceF zero ofNat a x k) ∧
      |A.val (polyForceF zero ofNat a x k) - polyForce (a.exact A) (fun k => A.val (x k)) k| ≤ polyForceErr A a X k := by
  have hu := A.u_nonneg
  have hη := A.η_nonneg
  have hshape := polyderF_shape (A := A) zero ofNat a k
  have hpos : ∀ j, 0 < (polyder (a.exact A) k).shape j := polyder_shape_pos (a.exact A) h.shape k
  have hfit := h.force k
  have hX0 : ∀ k, 0 ≤ X k := fun k => zero_le_one.trans (h.one_le k)
  have hU := le_underflow hu hη d _ hpos X hX0 A.η hη
  have hg := one_le_growth hu (polyder (a.exact A) k).shape
  have hder : absDer a.shape (a.exact A).val k X = absPoly (polyder (a.exact A) k).shape (polyder (a.exact A) k).val X :=
    (absPoly_der (a.exact A) k X).symm
  rw [hder] at hfit
  have hentry : ∀ e ∈ box (polyder (a.exact A) k).shape, |(polyder (a.exact A) k).val e| ≤
      absPoly (polyder (a.exact A) k).shape (polyder (a.exact A) k).val X := fun e he =>
    le_polySum _ (fun e => |(polyder (a.exact A) k).val e|) (fun _ _ => abs_nonneg _) h.one_le e he
  have hP : 0 ≤ absPoly (polyder (a.exact A) k).shape (polyder (a.exact A) k).val X :=
    (abs_nonneg _).trans (hentry (fun _ => 0) (mem_box.2 hpos))
  have hPΩ : absPoly (polyder (a.exact A) k).shape (polyder (a.exact A) k).val X ≤ A.Ω := by
    refine le_trans ?_ hfit
    have h1 : absPoly (polyder (a.exact A) k).shape (polyder (a.exact A) k).val X ≤
        (1 + A.u) * growth A.u (polyder (a.exact A) k).shape *
          absPoly (polyder (a.exact A) k).shape (polyder (a.exact A) k).val X :=
      le_mul_of_one_le_left hP (one_le_mul_of_one_le_of_one_le (by linarith) hg)
    linarith
  have h1 := hNear_polyval h.zero d x ⟨(polyder (a.exact A) k).shape, (polyderF zero ofNat a k).val⟩ hpos X hx h.one_le
    (1 + A.u) A.η (by linarith) hη (polyder (a.exact A) k).val (fun e => |(polyder (a.exact A) k).val e|)
    (fun e he => hNear_der h.zero a h.coeffs k h.shape (h.nat k) (fun e he => (hentry e he).trans hPΩ) (hP.trans hPΩ) e he)
    (by
      refine le_trans (le_of_eq ?_) hfit
      dsimp only
      unfold absPoly
      ring)
  have hval : polyForceF zero ofNat a x k = -polyvalNdF zero d x ⟨(polyder (a.exact A) k).shape, (polyderF zero ofNat a k).val⟩ := by
    unfold polyForceF
    rw [← hshape]
  have hexact : polyForce (a.exact A) (fun k => A.val (x k)) k =
      -polySum (polyder (a.exact A) k).shape (polyder (a.exact A) k).val (fun k => A.val (x k)) := by
    unfold polyForce
    rw [polyvalNd_eq d _ _ hpos]
  obtain ⟨n1, n2⟩ := A.neg _ h1.1
  rw [hval, hexact]
  refine ⟨n1, ?_⟩
  rw [n2, neg_sub_neg, abs_sub_comm]
  refine h1.2.1.trans (le_of_eq ?_)
  unfold polyForceErr
  rw [hder]
  dsimp only
  unfold absPoly
  ring

/-- **C123.** Energies at computed positions: in addition the energy changes with the error of the position. -/
theorem poly_energy_near {zero : F} {a : ArrF F d} {X : Fin d → ℝ} (h : PolyFits A zero a X) {ε M : ℝ} (hM : ∀ k, M + ε ≤ X k)
    {x : Fin d → F} {y : Fin d → ℝ} (hxy : ∀ k, Near A ⟨ε, M⟩ (x k) (y k)) :
    Near A ⟨(∑ k, absDer a.shape (a.exact A).val k X) * ε + polyErr A.u A.η a.shape (a.exact A).val X,
      absPoly a.shape (a.exact A).val (fun _ => M)⟩ (polyEnergyF zero a x) (polyEnergy (a.exact A) y) := by
  have hx : ∀ k, A.fin (x k) ∧ |A.val (x k)| ≤ X k := fun k => ⟨(hxy k).1, (near_val (hxy k)).trans (hM k)⟩
  have hy : ∀ k, |y k| ≤ X k := fun k => by
    have h1 := (abs_nonneg _).trans (hxy k).2.1
    have h2 := hM k
    dsimp only at h1
    exact (hxy k).2.2.trans (by dsimp only; linarith)
  obtain ⟨h1, h2⟩ := poly_energy_rounding h x hx
  have h3 := polySum_lip a.shape (a.exact A).val (fun k => (hx k).2) hy (fun k => (hxy k).2.1)
  have h4 : ∀ z, polyEnergy (a.exact A) z = polySum a.shape (a.exact A).val z := fun z => polyvalNd_eq d z (a.exact A) h.shape
  refine ⟨h1, ?_, ?_⟩
  · have e : A.val (polyEnergyF zero a x) - polyEnergy (a.exact A) y =
        (A.val (polyEnergyF zero a x) - polyEnergy (a.exact A) (fun k => A.val (x k))) +
          (polyEnergy (a.exact A) (fun k => A.val (x k)) - polyEnergy (a.exact A) y) := by ring
    rw [e]
    refine (abs_add_le _ _).trans ?_
    rw [← h4 y, ← h4 (fun k => A.val (x k))] at h3
    dsimp only at h3 ⊢
    linarith
  · rw [h4 y]
    exact abs_polySum_le _ _ (fun k => (hxy k).2.2)

/-- **C123.** Forces at computed positions. -/
theorem poly_force_near {zero : F} {ofNat : Nat → F} {a : ArrF F d} {X : Fin d → ℝ} (h : PolyForceFits A zero ofNat a X)
    {ε M : ℝ} (hM : ∀ k, M + ε ≤ X k) {x : Fin d → F} {y : Fin d → ℝ} (hxy : ∀ k, Near A ⟨ε, M⟩ (x k) (y k)) (k : Fin d) :
    Near A ⟨(∑ j, absDer (polyder (a.exact A) k).shape (polyder (a.exact A) k).val j X) * ε + polyForceErr A a X k,
      absDer a.shape (a.exact A).val k (fun _ => M)⟩ (polyForceF zero ofNat a x k) (polyForce (a.exact A) y k) := by
  have hx : ∀ k, A.fin (x k) ∧ |A.val (x k)| ≤ X k := fun k => ⟨(hxy k).1, (near_val (hxy k)).trans (hM k)⟩
  have hy : ∀ k, |y k| ≤ X k := fun k => by
    have h1 := (abs_nonneg _).trans (hxy k).2.1
    have h2 := hM k
    dsimp only at h1
    exact (hxy k).2.2.trans (by dsimp only; linarith)
  obtain ⟨h1, h2⟩ := poly_force_rounding h x hx k
  have hpos : ∀ j, 0 < (polyder (a.exact A) k).shape j := polyder_shape_pos (a.exact A) h.shape k
  have h3 := polySum_lip (polyder (a.exact A) k).shape (polyder (a.exact A) k).val (fun k => (hx k).2) hy (fun k => (hxy k).2.1)
  have h4 : ∀ z, polyForce (a.exact A) z k = -polySum (polyder (a.exact A) k).shape (polyder (a.exact A) k).val z := fun z => by
    unfold polyForce
    rw [polyvalNd_eq d _ _ hpos]
  refine ⟨h1, ?_, ?_⟩
  · have e : A.val (polyForceF zero ofNat a x k) - polyForce (a.exact A) y k =
        (A.val (polyForceF zero ofNat a x k) - polyForce (a.exact A) (fun k => A.val (x k)) k) +
          (polyForce (a.exact A) (fun k => A.val (x k)) k - polyForce (a.exact A) y k) := by ring
    rw [e]
    refine (abs_add_le _ _).trans ?_
    have e2 : |polyForce (a.exact A) (fun k => A.val (x k)) k - polyForce (a.exact A) y k| ≤
        ε * ∑ j, absDer (polyder (a.exact A) k).shape (polyder (a.exact A) k).val j X := by
      rw [h4, h4, neg_sub_neg, abs_sub_comm]
      exact h3
    dsimp only
    linarith
  · rw [h4, abs_neg]
    refine (abs_polySum_le _ _ (X := fun _ => M) (fun k => (hxy k).2.2)).trans (le_of_eq ?_)
    exact absPoly_der (a.exact A) k _

omit [Sub F] [Div F] [LT F] in
/-- The potential that is set up evaluates these functions. -/
theorem polyF_new (zero : F) (ofNat : Nat → F) (a : ArrF F d) (hd : 0 < d) (hd' : d ≤ 3) (ranges : Option (List (F × F))) :
    ∃ pot, newPolynomialF zero ofNat a ranges = .ok pot ∧ pot.ranges = ranges.getD [] ∧ pot.bc = none ∧
      ∀ x, pot.evaluate x = (polyEnergyF zero a x, polyForceF zero ofNat a x) := by
  unfold newPolynomialF
  rw [if_neg (by omega), if_neg (by omega)]
  exact ⟨_, rfl, rfl, rfl, fun _ => rfl⟩

omit [Sub F] [Div F] [LT F] in
/-- **C123.** Potentials are set up in one to three dimensions; the exceptions in others are those of the code. -/
theorem polyF_dims (zero : F) (ofNat : Nat → F) (a : ArrF F d) (ranges : Option (List (F × F))) :
    ((∃ pot, newPolynomialF zero ofNat a ranges = .ok pot) ↔ 1 ≤ d ∧ d ≤ 3) ∧
      (newPolynomialF zero ofNat a ranges = .error .notImplementedError ↔ 4 ≤ d) ∧
      (newPolynomialF zero ofNat a ranges = .error .valueError ↔ d = 0) := by
  unfold newPolynomialF
  split_ifs with h1 h2
  · refine ⟨⟨fun ⟨_, h⟩ => (by cases h), fun h => (by omega)⟩, ⟨fun _ => h1, fun _ => rfl⟩, ⟨fun h => (by cases h), fun h => (by omega)⟩⟩
  · refine ⟨⟨fun ⟨_, h⟩ => (by cases h), fun h => (by omega)⟩, ⟨fun h => (by cases h), fun h => (by omega)⟩, ⟨fun _ => h2, fun _ => rfl⟩⟩
  · refine ⟨⟨fun _ => (by omega), fun _ => ⟨_, rfl⟩⟩, ⟨fun h => (by cases h), fun h => (by omega)⟩, ⟨fun h => (by cases h), fun h => (by omega)⟩⟩

/-- **C123.** Polynomial potentials meet what C109 asks of the forces: computed forces change by `L` times the error of the position
plus `φ`. -/
theorem poly_nearCfg_force {zero : F} {ofNat : Nat → F} {a : ArrF F d} {B : LdBnd}
    (h : PolyForceFits A zero ofNat a (fun _ => B.X + B.E))
    (hL : ∀ k, ∑ j, absDer (polyder (a.exact A) k).shape (polyder (a.exact A) k).val j (fun _ => B.X + B.E) ≤ B.L)
    (hφ : ∀ k, polyForceErr A a (fun _ => B.X + B.E) k ≤ B.φ)
    (hΦ : ∀ k, absDer a.shape (a.exact A).val k (fun _ => B.X) ≤ B.Φ) (e : ℝ) (x : Fin d → F) (y : Fin d → ℝ) (he : e ≤ B.E)
    (hxy : ∀ k, Near A ⟨e, B.X⟩ (x k) (y k)) (k : Fin d) :
    Near A (B.force e) (polyForceF zero ofNat a x k) (polyForce (a.exact A) y k) := by
  have h1 := poly_force_near h (ε := e) (M := B.X) (fun _ => by linarith) hxy k
  refine near_mono h1 ?_ (h1.2.2.trans (hΦ k))
  have he0 : 0 ≤ e := (abs_nonneg _).trans (hxy k).2.1
  dsimp only [LdBnd.force]
  have := mul_le_mul_of_nonneg_right (hL k) he0
  have := hφ k
  linarith

end

/-! ### Example -/

/-- Coefficients of the double well of the example input, computed. -/
def wellNum : ArrF Num53 1 := ⟨fun _ => 5, fun e => ⟨[0, 0.2, -4, 0, 1].getD (e 0) 0⟩⟩

def wellExact : NdArr 1 := ⟨fun _ => 5, fun e => [0, 0.2, -4, 0, 1].getD (e 0) 0⟩

def nat53 (n : Nat) : Num53 := ⟨n⟩

theorem box_one (s : Fin 1 → Nat) : box s = (Finset.range (s 0)).image (fun i _ => i) := by
  ext e
  simp only [mem_box, Finset.mem_image, Finset.mem_range]
  constructor
  · intro h
    exact ⟨e 0, h 0, by funext k; rw [Subsingleton.elim k 0]⟩
  · rintro ⟨i, hi, rfl⟩ k
    rw [Subsingleton.elim k 0]
    exact hi

theorem sum_box_one (s : Fin 1 → Nat) (f : (Fin 1 → Nat) → ℝ) : ∑ e ∈ box s, f e = ∑ i ∈ Finset.range (s 0), f (fun _ => i) := by
  rw [box_one, Finset.sum_image]
  intro i _ j _ h
  exact congrFun h 0

theorem absDer_one (s : Fin 1 → Nat) (c : (Fin 1 → Nat) → ℝ) (k : Fin 1) (X : Fin 1 → ℝ) :
    absDer s c k X = ∑ i ∈ Finset.range (s 0), |c (fun _ => i)| * ((i : ℝ) * X 0 ^ (i - 1)) := by
  unfold absDer
  rw [sum_box_one]
  refine Finset.sum_congr rfl fun i _ => ?_
  rw [Subsingleton.elim k 0]
  simp

theorem wellNum_exact (Ω : ℝ) : wellNum.exact (rounding53 Ω) = wellExact := rfl

theorem wellExact_der (k : Fin 1) : polyder wellExact k = ⟨fun _ => 4, fun e => ((e 0 + 1 : Nat) : ℝ) * [0, 0.2, -4, 0, 1].getD (e 0 + 1) 0⟩ := by
  rw [Subsingleton.elim k 0]
  unfold polyder wellExact
  rw [if_neg (by norm_num)]
  simp only [Function.update_self]
  congr 1
  funext j
  rw [Subsingleton.elim j 0, Function.update_self]

theorem well_absDer (X : Fin 1 → ℝ) (k : Fin 1) : absDer wellExact.shape wellExact.val k X = 0.2 + 8 * X 0 + 4 * X 0 ^ 3 := by
  rw [absDer_one]
  simp only [wellExact, Finset.sum_range_succ, Finset.sum_range_zero]
  norm_num [abs_of_pos]
  ring

theorem well_absDer2 (X : Fin 1 → ℝ) (k j : Fin 1) :
    absDer (polyder wellExact k).shape (polyder wellExact k).val j X = 8 + 12 * X 0 ^ 2 := by
  rw [wellExact_der, absDer_one]
  simp only [Finset.sum_range_succ, Finset.sum_range_zero]
  norm_num [abs_of_pos]
  ring

theorem underflow_zero (u : ℝ) : (d : Nat) → (s : Fin d → Nat) → (X : Fin d → ℝ) → underflow u 0 d s X 0 = 0
  | 0, _, _ => rfl
  | d + 1, s, X => by
    unfold underflow
    rw [add_zero, mul_zero, zero_mul]
    exact underflow_zero u d _ _

/-- Bounds for random numbers up to 10, time step 0.005, positions between -2.5 and 2.5. -/
def wellBnd : LdBnd where
  dt := Bnd.exact 0.005
  half := Bnd.exact 1
  c1 := Bnd.exact 1
  c2 := Bnd.exact 0
  noiseFactor := Bnd.exact 0.11
  noise := Bnd.exact 10
  mass := 1
  X := 2.5
  P := 0
  Φ := 83
  L := 84
  φ := 1e-13
  E := 0.01

theorem well_fits : PolyForceFits (rounding53 1e300) ⟨0⟩ nat53 wellNum (fun _ => wellBnd.X + wellBnd.E) where
  zero := ⟨trivial, rfl⟩
  shape := fun _ => by norm_num [wellNum]
  coeffs := fun _ _ => trivial
  one_le := fun _ => by norm_num [wellBnd]
  nat := fun _ _ _ => ⟨trivial, rfl⟩
  force := by
    intro k
    rw [wellNum_exact]
    change (1 + 2⁻¹ ^ 53) * growth (2⁻¹ ^ 53) (polyder wellExact k).shape * absDer wellExact.shape wellExact.val k _ +
      underflow (2⁻¹ ^ 53) 0 1 _ _ 0 ≤ 1e300
    rw [underflow_zero, well_absDer, wellExact_der]
    norm_num [growth, wellBnd]

theorem well_forceErr (k : Fin 1) : polyForceErr (rounding53 1e300) wellNum (fun _ => wellBnd.X + wellBnd.E) k ≤ wellBnd.φ := by
  unfold polyForceErr
  rw [wellNum_exact]
  change ((1 + 2⁻¹ ^ 53) * growth (2⁻¹ ^ 53) (polyder wellExact k).shape - 1) * absDer wellExact.shape wellExact.val k _ +
      underflow (2⁻¹ ^ 53) 0 1 _ _ 0 ≤ _
  rw [underflow_zero, well_absDer, wellExact_der]
  norm_num [growth, wellBnd]

/-- The error of the computed force of the double well is at most 1e-13 between -2.5 and 2.5. -/
example (x : Num53) (hx : |x.val| ≤ 2.5) :
    |(polyForceF ⟨0⟩ nat53 wellNum (fun _ => x) 0).val - polyForce wellExact (fun _ => x.val) 0| ≤ 1e-13 :=
  ((poly_force_rounding well_fits (fun _ => x) (fun _ => ⟨trivial, hx.trans (by norm_num [wellBnd])⟩) 0).2).trans (well_forceErr 0)

/-- Computed and exact potential, with reflective boundaries. -/
def wellPotNum : Potential Num53 1 :=
  ⟨polyEnergyF ⟨0⟩ wellNum, polyForceF ⟨0⟩ nat53 wellNum, baseEvaluate (polyEnergyF ⟨0⟩ wellNum) (polyForceF ⟨0⟩ nat53 wellNum),
    [(⟨-2.5⟩, ⟨2.5⟩)], some .reflective⟩

def wellPot : Potential ℝ 1 :=
  ⟨polyEnergy wellExact, polyForce wellExact, baseEvaluate (polyEnergy wellExact) (polyForce wellExact), [(-2.5, 2.5)], some .reflective⟩

def wellCfg : LdCfg Num53 1 := ⟨wellPotNum, ⟨0.005⟩, ⟨1⟩, ⟨1 / 2⟩, ⟨1⟩, fun _ => ⟨0⟩, ⟨Real.sqrt (2 * 0.005)⟩⟩

theorem well_near : NearCfg (rounding53 1e300) wellBnd .overdamped wellCfg (overdampedCfg wellPot 0.005) where
  dt := ⟨trivial, by simp [wellCfg, overdampedCfg, rounding53, wellBnd, Bnd.exact], by
    simp only [overdampedCfg, wellBnd, Bnd.exact]; norm_num [abs_of_pos]⟩
  half := ⟨trivial, by simp [wellCfg, overdampedCfg, rounding53, wellBnd, Bnd.exact], by
    simp only [overdampedCfg, wellBnd, Bnd.exact]; norm_num [abs_of_pos]⟩
  c1 := ⟨trivial, by simp [wellCfg, overdampedCfg, rounding53, wellBnd, Bnd.exact], by
    simp only [overdampedCfg, wellBnd, Bnd.exact]; norm_num⟩
  noiseFactor := ⟨trivial, by simp [wellCfg, overdampedCfg, rounding53, wellBnd, Bnd.exact], by
    simp only [overdampedCfg, wellBnd, Bnd.exact]
    rw [abs_of_nonneg (Real.sqrt_nonneg _)]
    exact Real.sqrt_le_iff.2 (by norm_num)⟩
  mass := one_pos
  force := by
    intro e x y he h k
    refine poly_nearCfg_force well_fits ?_ well_forceErr ?_ e x y he h k
    · intro k
      rw [wellNum_exact, Finset.sum_congr rfl fun j _ => well_absDer2 _ k j]
      norm_num [wellBnd]
    · intro k
      have := well_absDer (fun _ => wellBnd.X) k
      rw [wellNum_exact]
      refine this.le.trans ?_
      norm_num [wellBnd]
  bc := Or.inr ⟨rfl, rfl, rfl, le_rfl, by simp [overdampedCfg, wellPot, wellPotNum, wellCfg, rounding53],
    by norm_num [wellCfg, wellPotNum, rounding53]⟩

theorem wellBnd_small : wellBnd.growth (2⁻¹ ^ 53) ≤ 1.421 ∧ 1 ≤ wellBnd.growth (2⁻¹ ^ 53) ∧
    0 ≤ (wellBnd.euler (2⁻¹ ^ 53) 0 0).err ∧ (wellBnd.euler (2⁻¹ ^ 53) 0 0).err ≤ 2e-15 := by
  unfold LdBnd.growth LdBnd.euler LdBnd.force wellBnd Bnd.add Bnd.mul Bnd.exact
  norm_num

theorem wellBnd_steps (n : Nat) (hn : n ≤ 20) : ((wellBnd.next .overdamped (2⁻¹ ^ 53) 0)^[n] (0, 0)).1 ≤ 1e-10 := by
  obtain ⟨h1, h2, h3, h4⟩ := wellBnd_small
  refine (euler_bound wellBnd _ 0 h2 h3 n (0, 0)).trans ?_
  have h5 : wellBnd.growth (2⁻¹ ^ 53) ^ n ≤ 1.421 ^ 20 :=
    (pow_le_pow_right₀ h2 hn).trans (pow_le_pow_left₀ (by linarith) h1 20)
  have h6 : (n : ℝ) ≤ 20 := by exact_mod_cast hn
  have h7 : (n : ℝ) * (wellBnd.euler (2⁻¹ ^ 53) 0 0).err ≤ 20 * 2e-15 := mul_le_mul h6 h4 h3 (by norm_num)
  have h8 := mul_le_mul h5 h7 (by positivity) (by norm_num)
  simp only [zero_add]
  refine h8.trans ?_
  norm_num

/-- Walkers at rest, computed and exact. -/
def wellStart {R : Type} (r : R) (xs : List ℝ) : LdState Num53 1 R :=
  ⟨xs.map (fun x => ⟨fun _ => ⟨x⟩, fun _ => ⟨0⟩, ⟨1⟩, (wellPotNum.evaluate (fun _ => ⟨x⟩)).1,
    (wellPotNum.evaluate (fun _ => ⟨x⟩)).2, ⟨0⟩⟩), r⟩

def wellStartExact {R : Type} (r : R) (xs : List ℝ) : LdState ℝ 1 R :=
  ⟨xs.map (fun x => ⟨fun _ => x, fun _ => 0, 1, (wellPot.evaluate (fun _ => x)).1, (wellPot.evaluate (fun _ => x)).2, 0⟩), r⟩

/-- Walkers in the double well that start anywhere between -2.5 and 2.5: after at most 20 steps the positions computed with 53 digits
are exact up to 1e-10, for all random numbers up to 10. -/
theorem well_rounding {R : Type} (normal : NormalOps R Num53 1) (hn : ∀ r k, |((normal r).1 k).val| ≤ 10) (r : R) (xs : List ℝ)
    (hx : ∀ x ∈ xs, |x| ≤ 2.5) (n : Nat) (hn' : n ≤ 20) :
    ∃ t t', LdState.iter .overdamped wellCfg normal n (wellStart r xs) = .ok t ∧
      LdState.iter .overdamped (overdampedCfg wellPot 0.005) (valNormal (rounding53 1e300) normal) n (wellStartExact r xs) = .ok t' ∧
      t.particles.length = xs.length ∧ t'.particles.length = xs.length ∧
      ∀ (i : Nat) p q, t.particles[i]? = some p → t'.particles[i]? = some q → |(p.pos 0).val - q.pos 0| ≤ 1e-10 := by
  have hsmall : ∀ m ≤ n, ((wellBnd.next .overdamped (2⁻¹ ^ 53) 0)^[m] (0, 0)).1 ≤ 1e-10 := fun m hm =>
    wellBnd_steps m (hm.trans hn')
  have hpos : ∀ m, 0 ≤ ((wellBnd.next .overdamped (2⁻¹ ^ 53) 0)^[m] (0, 0)).1 := by
    intro m
    obtain ⟨_, h2, h3, _⟩ := wellBnd_small
    rw [euler_closed, mul_zero, zero_add]
    exact mul_nonneg h3 (Finset.sum_nonneg fun i _ => by positivity)
  have hw : ∀ (i : Nat) p q, (wellStart r xs).particles[i]? = some p → (wellStartExact r xs).particles[i]? = some q →
      NearWalker (rounding53 1e300) wellBnd .overdamped wellCfg (overdampedCfg wellPot 0.005) (0, 0) p q := by
    intro i p q hp hq
    simp only [wellStart, wellStartExact, List.getElem?_map, Option.map_eq_some_iff] at hp hq
    obtain ⟨x, hx1, rfl⟩ := hp
    obtain ⟨x', hx2, rfl⟩ := hq
    rw [hx1] at hx2
    cases hx2
    exact ⟨fun k => ⟨trivial, by simp [rounding53], hx x (List.mem_of_getElem? hx1)⟩, (fun h => by cases h), ⟨trivial, rfl, rfl⟩,
      ⟨trivial, by simp [rounding53, wellBnd, Bnd.exact], by simp [wellBnd, Bnd.exact]⟩, rfl, rfl⟩
  have hfit : ∀ m < n, wellBnd.fits .overdamped (2⁻¹ ^ 53) 0 1e300 ((wellBnd.next .overdamped (2⁻¹ ^ 53) 0)^[m] (0, 0)) := by
    intro m hm
    have h1 := hsmall m hm.le
    have h0 := hpos m
    change wellBnd.eulerFits (2⁻¹ ^ 53) 0 1e300 ((wellBnd.next .overdamped (2⁻¹ ^ 53) 0)^[m] (0, 0)).1
    generalize ((wellBnd.next .overdamped (2⁻¹ ^ 53) 0)^[m] (0, 0)).1 = e at h0 h1
    unfold LdBnd.eulerFits LdBnd.force wellBnd Bnd.add Bnd.mul Bnd.mulTop Bnd.addTop Bnd.exact
    dsimp only
    norm_num
    refine ⟨?_, ?_, ?_⟩ <;> linarith
  have hin : ∀ m ≤ n, ∀ t', LdState.iter .overdamped (overdampedCfg wellPot 0.005)
      (valNormal (rounding53 1e300) normal) m (wellStartExact r xs) = .ok t' → ∀ q ∈ t'.particles, Inside wellBnd .overdamped q := by
    intro m _ t' ht'
    refine inside_reflective rfl le_rfl (by norm_num [overdampedCfg, wellPot, wellBnd]) _ _ ?_ m t' ht'
    intro q hq
    simp only [wellStartExact, List.mem_map] at hq
    obtain ⟨x, hx1, rfl⟩ := hq
    exact ⟨fun k => hx x hx1, fun h => by cases h⟩
  obtain ⟨t, t', h1, h2, h3, h4, h5⟩ := ld_rounding well_near normal (wellStart r xs) (wellStartExact r xs) rfl
    (fun j k => ⟨trivial, hn _ k⟩) le_rfl (0, 0) (by simp [wellStart, wellStartExact]) hw n
    (fun m hm => (hsmall m hm).trans (by norm_num [wellBnd])) hfit hin
  refine ⟨t, t', h1, h2, by simpa [wellStart] using h3, by simpa [wellStart] using h4, fun i p q hp hq => ?_⟩
  exact ((h5 i p q hp hq 0).1).trans (hsmall n le_rfl)

/-- Two dimensions: 1 - 2 x y + 3 x. -/
def planeNum : ArrF Num53 2 := ⟨fun _ => 2, fun e => ⟨[[1, 0], [3, -2]].getD (e 0) [] |>.getD (e 1) 0⟩⟩

theorem plane_abs : absPoly planeNum.shape (planeNum.exact (rounding53 1e300)).val (fun _ => 10) = 231 := by
  unfold absPoly
  rw [polySum_horner _ (by norm_num [planeNum]), polySum_horner _ (by norm_num [planeNum, Fin.tail]), polySum_zero]
  norm_num [planeNum, ArrF.exact, rounding53, horner, Fin.tail, List.range_succ]

theorem plane_fits : PolyFits (rounding53 1e300) ⟨0⟩ planeNum (fun _ => 10) where
  zero := ⟨trivial, rfl⟩
  shape := fun _ => by norm_num [planeNum]
  coeffs := fun _ _ => trivial
  one_le := fun _ => by norm_num
  energy := by
    rw [plane_abs]
    change growth (2⁻¹ ^ 53) _ * 231 + underflow (2⁻¹ ^ 53) 0 2 _ _ 0 ≤ 1e300
    rw [underflow_zero]
    norm_num [growth, planeNum]

/-- The error of this energy for positions up to 10. -/
example (x : Fin 2 → Num53) (hx : ∀ k, |(x k).val| ≤ 10) :
    |(polyEnergyF ⟨0⟩ planeNum x).val - polyEnergy (planeNum.exact (rounding53 1e300)) (fun k => (x k).val)| ≤ 3e-13 := by
  refine (poly_energy_rounding plane_fits x (fun k => ⟨trivial, hx k⟩)).2.trans ?_
  unfold polyErr
  rw [plane_abs]
  change (growth (2⁻¹ ^ 53) _ - 1) * 231 + underflow (2⁻¹ ^ 53) 0 2 _ _ 0 ≤ _
  rw [underflow_zero]
  norm_num [growth, planeNum]

/-- Without rounding the model is the one with real numbers. -/
theorem poly_exact {d : Nat} (a : NdArr d) (x : Fin d → ℝ) :
    polyEnergyF 0 ⟨a.shape, a.val⟩ x = polyEnergy a x ∧
      polyForceF 0 (fun n => (n : ℝ)) ⟨a.shape, a.val⟩ x = polyForce a x := by
  have hh : ∀ n y (c : Nat → ℝ), hornerF 0 n y c = horner n y c := fun n y c => by
    unfold hornerF horner
    simp
  have hv : ∀ (d : Nat) (x : Fin d → ℝ) (a : NdArr d), polyvalNdF 0 d x ⟨a.shape, a.val⟩ = polyvalNd d x a := by
    intro d
    induction d with
    | zero => exact fun _ _ => rfl
    | succ d ih =>
      intro x a
      unfold polyvalNdF polyvalNd
      simp only [hh]
      exact ih _ ⟨_, _⟩
  refine ⟨hv d x a, ?_⟩
  funext k
  unfold polyForceF polyForce
  congr 1
  have : (polyderF 0 (fun n => (n : ℝ)) ⟨a.shape, a.val⟩ k) = ⟨(polyder a k).shape, (polyder a k).val⟩ := by
    unfold polyderF polyder
    dsimp only
    split <;> simp
  rw [this]
  exact hv d x _

end
end Bdld
