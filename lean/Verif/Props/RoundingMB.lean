import Verif.Spec.RoundingMB
import Verif.Lemmas.RoundingRates
import Verif.Props.MuellerBrown
import Verif.Props.Rounding

/-
C127: rounding errors of the Müller-Brown potential.
-/

namespace Bdld
open Spec

noncomputable section

section
variable {F : Type} [Add F] [Sub F] [Mul F] [Div F] [Neg F] [LT F] {A : Rounding F}

theorem near_square {f : MB.Fns F} (C : MBContract A f) {b : Bnd} {a : F} {x : ℝ} (h : Near A b a x) (hΩ : b.sqTop ≤ A.Ω) :
    Near A (b.sq C.us A.η) (f.sq a) (x ^ 2) := by
  have hm : 0 ≤ b.mag := (abs_nonneg _).trans h.2.2
  have he : 0 ≤ b.err := (abs_nonneg _).trans h.2.1
  have hv : A.val a ^ 2 ≤ b.sqTop := by
    rw [← sq_abs]
    exact pow_le_pow_left₀ (abs_nonneg _) (near_val h) 2
  obtain ⟨hf, hs⟩ := C.sq a h.1 (hv.trans hΩ)
  refine ⟨hf, ?_, ?_⟩
  · have e : A.val (f.sq a) - x ^ 2 = (A.val (f.sq a) - A.val a ^ 2) + (2 * (x * (A.val a - x)) + (A.val a - x) ^ 2) := by ring
    rw [e]
    have h1 := abs_add_le (A.val (f.sq a) - A.val a ^ 2) (2 * (x * (A.val a - x)) + (A.val a - x) ^ 2)
    have h2 := abs_add_le (2 * (x * (A.val a - x))) ((A.val a - x) ^ 2)
    have h3 : |2 * (x * (A.val a - x))| ≤ 2 * (b.mag * b.err) := by
      rw [abs_mul, abs_mul, abs_two]
      exact mul_le_mul_of_nonneg_left (mul_le_mul h.2.2 h.2.1 (abs_nonneg _) hm) (by norm_num)
    have h4 : |(A.val a - x) ^ 2| ≤ b.err ^ 2 := by
      rw [abs_pow]
      exact pow_le_pow_left₀ (abs_nonneg _) h.2.1 2
    have h5 := mul_le_mul_of_nonneg_left hv C.us_nonneg
    unfold Bnd.sqTop at h5
    unfold Bnd.sq
    dsimp only
    linarith
  · rw [abs_pow]
    exact pow_le_pow_left₀ (abs_nonneg _) h.2.2 2

theorem near_expTo {f : MB.Fns F} (C : MBContract A f) {b : Bnd} {a : F} {x T : ℝ} (h : Near A b a x) (hT : Real.exp x ≤ T)
    (hs : b.err ≤ 1) (hΩ : b.expTop T ≤ A.Ω) : Near A (b.expTo C.er A.η T) (f.exp a) (Real.exp x) := by
  have he : 0 ≤ b.err := (abs_nonneg _).trans h.2.1
  have hT0 : 0 ≤ T := (Real.exp_pos x).le.trans hT
  have h1 : |Real.exp (A.val a - x) - 1| ≤ 2 * b.err := by
    have := Real.abs_exp_sub_one_le (h.2.1.trans hs)
    linarith [h.2.1]
  have h2 : Real.exp (A.val a) = Real.exp x * Real.exp (A.val a - x) := by
    rw [← Real.exp_add]
    congr 1
    ring
  have h3 : Real.exp (A.val a) ≤ T * (1 + 2 * b.err) := by
    rw [h2]
    refine mul_le_mul hT ?_ (Real.exp_pos _).le hT0
    linarith [(abs_le.1 h1).2]
  have h4 : |Real.exp (A.val a) - Real.exp x| ≤ T * (2 * b.err) := by
    have e : Real.exp (A.val a) - Real.exp x = Real.exp x * (Real.exp (A.val a - x) - 1) := by
      rw [h2]
      ring
    rw [e, abs_mul, abs_of_pos (Real.exp_pos x)]
    exact mul_le_mul hT h1 (abs_nonneg _) hT0
  obtain ⟨hf, hc⟩ := C.exp a h.1 (h3.trans hΩ)
  refine ⟨hf, ?_, ?_⟩
  · have e : A.val (f.exp a) - Real.exp x = (A.val (f.exp a) - Real.exp (A.val a)) + (Real.exp (A.val a) - Real.exp x) := by ring
    rw [e]
    have h5 := abs_add_le (A.val (f.exp a) - Real.exp (A.val a)) (Real.exp (A.val a) - Real.exp x)
    have h6 := mul_le_mul_of_nonneg_left h3 C.er_nonneg
    unfold Bnd.expTo
    dsimp only
    linarith
  · rw [abs_of_pos (Real.exp_pos x)]
    exact hT

theorem near_acc {ι : Type} {t : ι → Bnd} {v : ι → F} {w : ι → ℝ} (h : ∀ i, Near A (t i) (v i) (w i)) :
    ∀ (l : List ι) (s : Bnd) (a : F) (x : ℝ), Near A s a x → Bnd.accFits A.u A.Ω t l s →
      Near A (Bnd.acc A.u t l s) (l.foldl (fun s i => s + v i) a) (l.foldl (fun s i => s + w i) x)
  | [], _, _, _, hs, _ => hs
  | i :: l, _, _, _, hs, hf => near_acc h l _ _ _ (near_add hs (h i) hf.1) hf.2

theorem foldl_pair {ι G : Type} [Add G] (v w : ι → G) : ∀ (l : List ι) (a b : G),
    l.foldl (fun (s : G × G) i => (s.1 + v i, s.2 + w i)) (a, b) = (l.foldl (fun s i => s + v i) a, l.foldl (fun s i => s + w i) b)
  | [], _, _ => rfl
  | i :: l, a, b => foldl_pair v w l (a + v i) (b + w i)

theorem foldl_triple {ι G : Type} [Add G] (z v w : ι → G) : ∀ (l : List ι) (c a b : G),
    l.foldl (fun (s : G × G × G) i => (s.1 + z i, s.2.1 + v i, s.2.2 + w i)) (c, a, b) =
      (l.foldl (fun s i => s + z i) c, l.foldl (fun s i => s + v i) a, l.foldl (fun s i => s + w i) b)
  | [], _, _, _ => rfl
  | i :: l, c, a, b => foldl_triple z v w l (c + z i) (a + v i) (b + w i)

/-- Computed and exact constants agree within the bounds; `A'` is the exact value of the module variable `A`. -/
structure NearConsts (A : Rounding F) (K : MBBnd) (k : MB.Consts F) (A' : Fin 4 → ℝ) : Prop where
  pre : ∀ i, Near A (K.A i) (k.A i) (A' i)
  a : ∀ i, Near A (K.a i) (k.a i) (MB.a i)
  b : ∀ i, Near A (K.b i) (k.b i) (MB.b i)
  c : ∀ i, Near A (K.c i) (k.c i) (MB.c i)
  x0 : ∀ i, Near A (K.x0 i) (k.x0 i) (MB.x0 i)
  y0 : ∀ i, Near A (K.y0 i) (k.y0 i) (MB.y0 i)
  shift : Near A K.shift k.shift MB.potShift
  zero : A.fin k.zero ∧ A.val k.zero = 0
  two : Near A K.two k.two 2

variable {f : MB.Fns F} (C : MBContract A f) {K : MBBnd} {k : MB.Consts F} {A' : Fin 4 → ℝ} (hk : NearConsts A K k A')

include hk in
theorem near_expTmp {i : Fin 4} (hf : K.ExpFits A.u A.η C.us i A.Ω) {x y : F} {x' y' : ℝ} (hx : Near A K.x x x')
    (hy : Near A K.y y y') (hT : MB.expTmp i x' y' ≤ K.T i) :
    Near A (K.exp A.u A.η C.er C.us i) (MB.expTmpF f k i x y) (MB.expTmp i x' y') := by
  have hdx := near_sub hx (hk.x0 i) hf.dx
  have hdy := near_sub hy (hk.y0 i) hf.dy
  have h1 := near_mul (hk.a i) (near_square C hdx hf.sqx) hf.argA
  have h2 := near_mul (near_mul (hk.b i) hdx hf.bx) hdy hf.argB
  have h3 := near_mul (hk.c i) (near_square C hdy hf.sqy) hf.argC
  exact near_expTo C (near_add (near_add h1 h2 hf.add1) h3 hf.add2) hT hf.small hf.exp

include hk in
/-- **C127.** The computed energy is within the bounds of the exact one. -/
theorem mb_energy_near (hf : K.EnergyFits A.u A.η C.er C.us A.Ω) {pos : Fin 2 → F} {pos' : Fin 2 → ℝ}
    (hx : Near A K.x (pos 0) (pos' 0)) (hy : Near A K.y (pos 1) (pos' 1)) (hT : ∀ i, MB.expTmp i (pos' 0) (pos' 1) ≤ K.T i) :
    Near A (K.energy A.u A.η C.er C.us) (MB.energyF f k pos) (MB.energy A' pos') := by
  refine near_add (near_acc (fun i => near_mul (hk.pre i) (near_expTmp C hk (hf.exp i) hx hy (hT i)) (hf.term i)) _ _ _ _ ?_ hf.sum)
    hk.shift hf.shift
  exact ⟨hk.zero.1, by simp [hk.zero.2, Bnd.exact], by simp [Bnd.exact]⟩

include hk in
/-- **C127.** The computed forces are within the bounds of the exact ones. -/
theorem mb_force_near (hf : K.ForceFits A.u A.η C.er C.us A.Ω) {pos : Fin 2 → F} {pos' : Fin 2 → ℝ}
    (hx : Near A K.x (pos 0) (pos' 0)) (hy : Near A K.y (pos 1) (pos' 1)) (hT : ∀ i, MB.expTmp i (pos' 0) (pos' 1) ≤ K.T i)
    (j : Fin 2) : Near A (K.force A.u A.η C.er C.us j) (MB.forceF f k pos j) (MB.force A' pos' j) := by
  have hz : Near A (Bnd.exact 0) k.zero 0 := ⟨hk.zero.1, by simp [hk.zero.2, Bnd.exact], by simp [Bnd.exact]⟩
  have he := fun i => near_expTmp C hk (hf.exp i) hx hy (hT i)
  have hdx := fun i => near_sub hx (hk.x0 i) (hf.exp i).dx
  have hdy := fun i => near_sub hy (hk.y0 i) (hf.exp i).dy
  have hX := fun i => near_mul (near_mul (near_neg (hk.pre i)) (near_add (near_mul (near_mul hk.two (hk.a i) (hf.twoA i)) (hdx i) (hf.ax i))
    (near_mul (hk.b i) (hdy i) (hf.by' i)) (hf.linX i)) (hf.preX i)) (he i) (hf.forceX i)
  have hY := fun i => near_mul (near_mul (near_neg (hk.pre i)) (near_add (near_mul (hk.b i) (hdx i) (hf.exp i).bx)
    (near_mul (near_mul hk.two (hk.c i) (hf.twoC i)) (hdy i) (hf.cy i)) (hf.linY i)) (hf.preY i)) (he i) (hf.forceY i)
  have h0 := near_acc hX (List.finRange 4) _ _ _ hz hf.sumX
  have h1 := near_acc hY (List.finRange 4) _ _ _ hz hf.sumY
  unfold MB.forceF MB.force
  rw [foldl_pair, foldl_pair]
  fin_cases j
  · exact h0
  · exact h1

omit [Div F] [LT F] in
/-- The energy and the forces of `evaluate` are those of the separate functions, to the last digit. -/
theorem mbF_evaluate (f : MB.Fns F) (k : MB.Consts F) (pos : Fin 2 → F) :
    MB.evaluateF f k pos = (MB.energyF f k pos, MB.forceF f k pos) := by
  unfold MB.evaluateF MB.energyF MB.forceF
  rw [foldl_triple, foldl_pair]

end

/-! ### Change with the position -/

/-- Largest distances from the centre of a term, for positions up to `R`. -/
def mbDx (R : ℝ) (i : Fin 4) : ℝ := R + |MB.x0 i|
def mbDy (R : ℝ) (i : Fin 4) : ℝ := R + |MB.y0 i|

/-- How much the argument of the exponential changes with the position. -/
def mbArgLip (R : ℝ) (i : Fin 4) : ℝ :=
  |MB.a i| * (2 * mbDx R i) + |MB.b i| * (mbDx R i + mbDy R i) + |MB.c i| * (2 * mbDy R i)

/-- How much the energy changes with the position, if the exponentials are at most `T`. -/
def mbEnergyLip (A' T : Fin 4 → ℝ) (R : ℝ) : ℝ := ∑ i, |A' i| * (T i * mbArgLip R i)

/-- Coefficients of the derivative of the argument along coordinate `j`. -/
def mbLin (i : Fin 4) (j : Fin 2) : ℝ × ℝ := if j = 0 then (2 * MB.a i, MB.b i) else (MB.b i, 2 * MB.c i)

/-- How much the forces change with the position. -/
def mbForceLip (A' T : Fin 4 → ℝ) (R : ℝ) (j : Fin 2) : ℝ :=
  ∑ i, |A' i| * ((|(mbLin i j).1| + |(mbLin i j).2|) * T i +
    (|(mbLin i j).1| * mbDx R i + |(mbLin i j).2| * mbDy R i) * (T i * mbArgLip R i))

/-- Bound of the forces. -/
def mbForceMax (A' T : Fin 4 → ℝ) (R : ℝ) (j : Fin 2) : ℝ :=
  ∑ i, |A' i| * ((|(mbLin i j).1| * mbDx R i + |(mbLin i j).2| * mbDy R i) * T i)

theorem expTmp_pos (i : Fin 4) (x y : ℝ) : 0 < MB.expTmp i x y := Real.exp_pos _

theorem force_lin (A' : Fin 4 → ℝ) (p : Fin 2 → ℝ) (j : Fin 2) :
    MB.force A' p j =
      ∑ i, -A' i * ((mbLin i j).1 * (p 0 - MB.x0 i) + (mbLin i j).2 * (p 1 - MB.y0 i)) * MB.expTmp i (p 0) (p 1) := by
  fin_cases j
  · exact MB.force_zero A' p
  · exact MB.force_one A' p

theorem abs_exp_sub_le {p q T : ℝ} (hp : Real.exp p ≤ T) (hq : Real.exp q ≤ T) : |Real.exp p - Real.exp q| ≤ T * |p - q| := by
  wlog h : q ≤ p generalizing p q
  · rw [abs_sub_comm, abs_sub_comm p q]
    exact this hq hp (le_of_not_ge h)
  · rw [abs_of_nonneg (by linarith [Real.exp_le_exp.2 h]), abs_of_nonneg (by linarith)]
    have h1 : Real.exp q = Real.exp p * Real.exp (q - p) := by
      rw [← Real.exp_add]
      congr 1
      ring
    have h2 := Real.add_one_le_exp (q - p)
    have h3 : Real.exp p - Real.exp q ≤ Real.exp p * (p - q) := by
      rw [h1]
      have := mul_le_mul_of_nonneg_left h2 (Real.exp_pos p).le
      linarith
    exact h3.trans (mul_le_mul_of_nonneg_right hp (by linarith))

section
variable {T : Fin 4 → ℝ} {R e : ℝ} {p q : Fin 2 → ℝ} (hp : ∀ k, |p k| ≤ R) (hq : ∀ k, |q k| ≤ R) (hpq : ∀ k, |p k - q k| ≤ e)
  (hTp : ∀ i, MB.expTmp i (p 0) (p 1) ≤ T i) (hTq : ∀ i, MB.expTmp i (q 0) (q 1) ≤ T i)

include hp in
theorem mb_dx (i : Fin 4) : |p 0 - MB.x0 i| ≤ mbDx R i ∧ |p 1 - MB.y0 i| ≤ mbDy R i :=
  ⟨(abs_sub _ _).trans (by unfold mbDx; linarith [hp 0]), (abs_sub _ _).trans (by unfold mbDy; linarith [hp 1])⟩

include hp hq hpq hTp hTq in
theorem mb_exp_lip (i : Fin 4) : |MB.expTmp i (p 0) (p 1) - MB.expTmp i (q 0) (q 1)| ≤ e * (T i * mbArgLip R i) := by
  have hT : 0 ≤ T i := (Real.exp_pos _).le.trans (hTp i)
  refine (abs_exp_sub_le (hTp i) (hTq i)).trans ?_
  rw [show e * (T i * mbArgLip R i) = T i * (e * mbArgLip R i) by ring]
  refine mul_le_mul_of_nonneg_left ?_ hT
  obtain ⟨p1, p2⟩ := mb_dx hp i
  obtain ⟨q1, q2⟩ := mb_dx hq i
  have h0 := hpq 0
  have h1 := hpq 1
  have he : 0 ≤ e := (abs_nonneg _).trans h0
  generalize hX : p 0 - MB.x0 i = X at p1
  generalize hY : p 1 - MB.y0 i = Y at p2
  generalize hX' : q 0 - MB.x0 i = X' at q1
  generalize hY' : q 1 - MB.y0 i = Y' at q2
  have d0 : |X - X'| ≤ e := by
    rw [← hX, ← hX']
    simpa using h0
  have d1 : |Y - Y'| ≤ e := by
    rw [← hY, ← hY']
    simpa using h1
  have e1 : MB.a i * X ^ 2 + MB.b i * X * Y + MB.c i * Y ^ 2 - (MB.a i * X' ^ 2 + MB.b i * X' * Y' + MB.c i * Y' ^ 2) =
      MB.a i * ((X - X') * (X + X')) + MB.b i * ((X - X') * Y + X' * (Y - Y')) + MB.c i * ((Y - Y') * (Y + Y')) := by ring
  rw [e1]
  have s0 : |(X - X') * (X + X')| ≤ e * (2 * mbDx R i) := by
    rw [abs_mul]
    exact mul_le_mul d0 ((abs_add_le _ _).trans (by linarith)) (abs_nonneg _) he
  have s1 : |(Y - Y') * (Y + Y')| ≤ e * (2 * mbDy R i) := by
    rw [abs_mul]
    exact mul_le_mul d1 ((abs_add_le _ _).trans (by linarith)) (abs_nonneg _) he
  have s2 : |(X - X') * Y + X' * (Y - Y')| ≤ e * (mbDx R i + mbDy R i) := by
    refine (abs_add_le _ _).trans ?_
    rw [abs_mul, abs_mul]
    have t1 := mul_le_mul d0 p2 (abs_nonneg _) he
    have t2 := mul_le_mul q1 d1 (abs_nonneg _) ((abs_nonneg _).trans q1)
    linarith
  refine (abs_add_le _ _).trans ((add_le_add_left (abs_add_le _ _) _).trans ?_)
  rw [abs_mul (MB.a i), abs_mul (MB.b i), abs_mul (MB.c i)]
  have t0 := mul_le_mul_of_nonneg_left s0 (abs_nonneg (MB.a i))
  have t1 := mul_le_mul_of_nonneg_left s1 (abs_nonneg (MB.c i))
  have t2 := mul_le_mul_of_nonneg_left s2 (abs_nonneg (MB.b i))
  unfold mbArgLip
  linarith

include hp hq hpq hTp hTq in
/-- **C127.** The exact energy changes at most proportionally to the error of the position. -/
theorem mb_energy_lip (A' : Fin 4 → ℝ) : |MB.energy A' p - MB.energy A' q| ≤ e * mbEnergyLip A' T R := by
  rw [MB.energy_eq, MB.energy_eq, add_sub_add_right_eq_sub, ← Finset.sum_sub_distrib]
  refine (Finset.abs_sum_le_sum_abs _ _).trans ?_
  unfold mbEnergyLip
  rw [Finset.mul_sum]
  refine Finset.sum_le_sum fun i _ => ?_
  rw [← mul_sub, abs_mul]
  have := mul_le_mul_of_nonneg_left (mb_exp_lip hp hq hpq hTp hTq i) (abs_nonneg (A' i))
  linarith

include hp in
theorem mb_lin_le (i : Fin 4) (j : Fin 2) : |(mbLin i j).1 * (p 0 - MB.x0 i) + (mbLin i j).2 * (p 1 - MB.y0 i)| ≤
    |(mbLin i j).1| * mbDx R i + |(mbLin i j).2| * mbDy R i := by
  obtain ⟨p1, p2⟩ := mb_dx hp i
  refine (abs_add_le _ _).trans ?_
  rw [abs_mul, abs_mul]
  have t1 := mul_le_mul_of_nonneg_left p1 (abs_nonneg (mbLin i j).1)
  have t2 := mul_le_mul_of_nonneg_left p2 (abs_nonneg (mbLin i j).2)
  linarith

include hp hq hpq hTp hTq in
/-- **C127.** The exact forces change at most proportionally to the error of the position. -/
theorem mb_force_lip (A' : Fin 4 → ℝ) (j : Fin 2) : |MB.force A' p j - MB.force A' q j| ≤ e * mbForceLip A' T R j := by
  rw [force_lin, force_lin, ← Finset.sum_sub_distrib]
  refine (Finset.abs_sum_le_sum_abs _ _).trans ?_
  unfold mbForceLip
  rw [Finset.mul_sum]
  refine Finset.sum_le_sum fun i _ => ?_
  have h1 := mb_exp_lip hp hq hpq hTp hTq i
  have h2 := mb_lin_le hp i j
  have he : 0 ≤ e := (abs_nonneg _).trans (hpq 0)
  have h3 : |((mbLin i j).1 * (p 0 - MB.x0 i) + (mbLin i j).2 * (p 1 - MB.y0 i)) -
      ((mbLin i j).1 * (q 0 - MB.x0 i) + (mbLin i j).2 * (q 1 - MB.y0 i))| ≤ e * (|(mbLin i j).1| + |(mbLin i j).2|) := by
    rw [show ((mbLin i j).1 * (p 0 - MB.x0 i) + (mbLin i j).2 * (p 1 - MB.y0 i)) -
      ((mbLin i j).1 * (q 0 - MB.x0 i) + (mbLin i j).2 * (q 1 - MB.y0 i)) =
      (mbLin i j).1 * (p 0 - q 0) + (mbLin i j).2 * (p 1 - q 1) by ring]
    refine (abs_add_le _ _).trans ?_
    rw [abs_mul, abs_mul]
    have t1 := mul_le_mul_of_nonneg_left (hpq 0) (abs_nonneg (mbLin i j).1)
    have t2 := mul_le_mul_of_nonneg_left (hpq 1) (abs_nonneg (mbLin i j).2)
    linarith
  have hq1 : |MB.expTmp i (q 0) (q 1)| ≤ T i := by
    rw [abs_of_pos (expTmp_pos i _ _)]
    exact hTq i
  generalize (mbLin i j).1 * (p 0 - MB.x0 i) + (mbLin i j).2 * (p 1 - MB.y0 i) = l at h2 h3
  generalize (mbLin i j).1 * (q 0 - MB.x0 i) + (mbLin i j).2 * (q 1 - MB.y0 i) = l' at h3
  generalize MB.expTmp i (p 0) (p 1) = t at h1
  generalize MB.expTmp i (q 0) (q 1) = t' at h1 hq1
  rw [show -A' i * l * t - -A' i * l' * t' = -A' i * (l * (t - t') + (l - l') * t') by ring, abs_mul, abs_neg]
  have s1 : |l * (t - t')| ≤ (|(mbLin i j).1| * mbDx R i + |(mbLin i j).2| * mbDy R i) * (e * (T i * mbArgLip R i)) := by
    rw [abs_mul]
    exact mul_le_mul h2 h1 (abs_nonneg _) ((abs_nonneg _).trans h2)
  have s2 : |(l - l') * t'| ≤ e * (|(mbLin i j).1| + |(mbLin i j).2|) * T i := by
    rw [abs_mul]
    exact mul_le_mul h3 hq1 (abs_nonneg _) (mul_nonneg he (add_nonneg (abs_nonneg _) (abs_nonneg _)))
  have s3 := mul_le_mul_of_nonneg_left ((abs_add_le (l * (t - t')) ((l - l') * t')).trans (add_le_add s1 s2)) (abs_nonneg (A' i))
  linarith

include hp hTp in
theorem mb_force_max (A' : Fin 4 → ℝ) (j : Fin 2) : |MB.force A' p j| ≤ mbForceMax A' T R j := by
  rw [force_lin]
  refine (Finset.abs_sum_le_sum_abs _ _).trans (Finset.sum_le_sum fun i _ => ?_)
  have h2 := mb_lin_le hp i j
  rw [abs_mul, abs_mul, abs_neg, abs_of_pos (expTmp_pos i _ _), mul_assoc]
  exact mul_le_mul_of_nonneg_left (mul_le_mul h2 (hTp i) (Real.exp_pos _).le ((abs_nonneg _).trans h2)) (abs_nonneg _)

end

section
variable {F : Type} [Add F] [Sub F] [Mul F] [Div F] [Neg F] [LT F] {A : Rounding F}

/-- **C127.** The Müller-Brown potential meets what C109 asks of the forces: computed forces change by `L` times the error of the
position plus `φ`. The bounds `K` are for positions without error, up to `X + E` at least. -/
theorem mb_nearCfg_force {f : MB.Fns F} (C : MBContract A f) {K : MBBnd} {k : MB.Consts F} {A' : Fin 4 → ℝ} (hk : NearConsts A K k A')
    (hf : K.ForceFits A.u A.η C.er C.us A.Ω) {B : LdBnd} (hx : K.x.err = 0 ∧ B.X + B.E ≤ K.x.mag)
    (hy : K.y.err = 0 ∧ B.X + B.E ≤ K.y.mag)
    (hT : ∀ p : Fin 2 → ℝ, (∀ j, |p j| ≤ B.X + B.E) → ∀ i, MB.expTmp i (p 0) (p 1) ≤ K.T i)
    (hL : ∀ j, mbForceLip A' K.T (B.X + B.E) j ≤ B.L) (hφ : ∀ j, (K.force A.u A.η C.er C.us j).err ≤ B.φ)
    (hΦ : ∀ j, mbForceMax A' K.T (B.X + B.E) j ≤ B.Φ) (e : ℝ) (x : Fin 2 → F) (y : Fin 2 → ℝ) (he : e ≤ B.E)
    (hxy : ∀ j, Near A ⟨e, B.X⟩ (x j) (y j)) (j : Fin 2) :
    Near A (B.force e) (MB.forceF f k x j) (MB.force A' y j) := by
  have he0 : 0 ≤ e := (abs_nonneg _).trans (hxy 0).2.1
  have h1 : ∀ j, |A.val (x j)| ≤ B.X + B.E := fun j => (near_val (hxy j)).trans (by dsimp only; linarith)
  have h2 : ∀ j, |y j| ≤ B.X + B.E := fun j => (hxy j).2.2.trans (by dsimp only; linarith)
  have h3 := mb_force_near C hk hf (pos := x) (pos' := fun j => A.val (x j)) ⟨(hxy 0).1, by simp [hx.1], (h1 0).trans hx.2⟩
    ⟨(hxy 1).1, by simp [hy.1], (h1 1).trans hy.2⟩ (hT _ h1) j
  have h4 := mb_force_lip h1 h2 (fun j => (hxy j).2.1) (hT _ h1) (hT _ h2) A' j
  refine ⟨h3.1, ?_, (mb_force_max h2 (hT _ h2) A' j).trans (hΦ j)⟩
  rw [show A.val (MB.forceF f k x j) - MB.force A' y j = (A.val (MB.forceF f k x j) - MB.force A' (fun j => A.val (x j)) j) +
    (MB.force A' (fun j => A.val (x j)) j - MB.force A' y j) by ring]
  refine (abs_add_le _ _).trans ?_
  have h5 := mul_le_mul_of_nonneg_left (hL j) he0
  dsimp only [LdBnd.force] at h4 ⊢
  linarith [h3.2.1, hφ j]

end

/-- Without rounding the model is the one with real numbers. -/
theorem mbF_exact (A' : Fin 4 → ℝ) (pos : Fin 2 → ℝ) :
    MB.evaluateF ⟨Real.exp, fun x => x ^ 2⟩ ⟨A', MB.a, MB.b, MB.c, MB.x0, MB.y0, MB.potShift, 0, 2⟩ pos = MB.evaluate A' pos := rfl

end
end Bdld
