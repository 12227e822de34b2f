import Verif.Props.Fes
import Verif.Props.Potential

/-
C106: a histogram that is close to the Boltzmann distribution of the potential gives a free energy surface and free
energy differences close to the reference; an ideal histogram gives the reference.
-/

namespace Bdld

open Spec

/-- The counts follow the Boltzmann distribution of the potential at the given points up to a factor between
`exp (-ε)` and `exp ε`. -/
def NearBoltzmann {d : Nat} (p : Potential ℝ d) (pos : List (Fin d → ℝ)) (kt : ℝ) (counts : List Nat) (C ε : ℝ) : Prop :=
  counts.length = pos.length ∧ ∀ (i n : Nat) (x : Fin d → ℝ), counts[i]? = some n → pos[i]? = some x →
    n ≠ 0 ∧ |Real.log n - (C - p.energy x / kt)| ≤ ε

/-- The reference with its minimum. -/
theorem reference_min {d : Nat} (p : Potential ℝ d) (pos : List (Fin d → ℝ)) (h : pos ≠ []) :
    ∃ m, calculateReference p pos true = .ok ((pos.map p.energy).map (· - m)) ∧ m ∈ pos.map p.energy ∧
      ∀ x ∈ pos.map p.energy, m ≤ x := by
  obtain ⟨m, h1, h2, h3⟩ := npMin_spec (pos.map p.energy) (by simpa using h)
  refine ⟨m, ?_, h2, h3⟩
  unfold calculateReference
  simp only [if_true, h1, ok_bind]
  rfl

/-- **C106.** Every value of the FES differs from the reference by at most `2 kT ε`. -/
theorem fes_accuracy {d : Nat} (p : Potential ℝ d) (pos : List (Fin d → ℝ)) (counts : Nd Nat) (kt C ε : ℝ) (hk : 0 < kt)
    (hne : pos ≠ []) (h : NearBoltzmann p pos kt counts.flat C ε) :
    ∃ fes ref, calculateFes counts kt true = .ok fes ∧ calculateReference p pos true = .ok ref ∧
      fes.flat.length = pos.length ∧ ref.length = pos.length ∧
      ∀ (i : Nat) (r : ℝ), ref[i]? = some r → ∃ f : ℝ, fes.flat[i]? = some (f : WithTop ℝ) ∧ |f - r| ≤ 2 * kt * ε := by
  obtain ⟨hl, h⟩ := h
  have hc : counts.flat ≠ [] := by
    intro h0
    rw [h0] at hl
    exact hne (List.length_eq_zero_iff.mp hl.symm)
  obtain ⟨m, h1, h2, h3⟩ := reference_min p pos hne
  refine ⟨_, _, fes_spec counts kt hk hc, h1, by simp [Nd.map, hl], by simp, fun i r hr => ?_⟩
  simp only [List.getElem?_map, Option.map_map] at hr
  obtain ⟨x, hx, rfl⟩ := Option.map_eq_some_iff.mp hr
  have hi : i < counts.flat.length := by
    rw [hl]
    exact (List.getElem?_eq_some_iff.mp hx).1
  obtain ⟨hn0, hn⟩ := h i _ x (List.getElem?_eq_getElem hi) hx
  generalize hni : counts.flat[i] = n at hn0 hn
  -- the fullest bin and the minimum of the energy
  have hM := maxCount_mem counts.flat hc
  have hMge := maxCount_ge counts.flat
  generalize maxCount counts.flat = M at hM hMge
  obtain ⟨j, hj, hjM⟩ := List.getElem_of_mem hM
  obtain ⟨y, hy⟩ : ∃ y, pos[j]? = some y := ⟨_, List.getElem?_eq_getElem (by omega)⟩
  obtain ⟨hM0, hMb⟩ := h j M y (by rw [List.getElem?_eq_getElem hj, hjM]) hy
  rw [List.mem_map] at h2
  obtain ⟨z, hz, rfl⟩ := h2
  obtain ⟨k, hk', hkz⟩ := List.getElem_of_mem hz
  have hkc : k < counts.flat.length := by omega
  obtain ⟨hK0, hKb⟩ := h k _ z (List.getElem?_eq_getElem hkc) (by rw [List.getElem?_eq_getElem hk', hkz])
  have hKM := hMge _ (List.getElem_mem hkc)
  generalize counts.flat[k] = K at hK0 hKb hKM
  have hym := h3 (p.energy y) (List.mem_map_of_mem (List.mem_of_getElem? hy))
  have hlogKM : Real.log K ≤ Real.log M :=
    Real.log_le_log (by positivity) (by exact_mod_cast hKM)
  refine ⟨kt * Real.log ((M : ℝ) / n), ?_, ?_⟩
  · simp only [Nd.map, List.getElem?_map, List.getElem?_eq_getElem hi, Option.map_some, hni, freeEnergy, if_neg hn0]
  · simp only [Function.comp_apply]
    rw [Real.log_div (by positivity) (by positivity)]
    have e : kt * (Real.log M - Real.log n) - (p.energy x - p.energy z) =
        kt * ((Real.log M - (C - p.energy z / kt)) - (Real.log n - (C - p.energy x / kt))) := by
      field_simp
      ring
    rw [e, abs_mul, abs_of_pos hk, show 2 * kt * ε = kt * (2 * ε) by ring]
    refine mul_le_mul_of_nonneg_left ?_ hk.le
    have hdiv : p.energy z / kt ≤ p.energy y / kt := div_le_div_of_nonneg_right hym hk.le
    rw [abs_le] at hn hMb hKb ⊢
    constructor <;> linarith [hn.1, hn.2, hMb.1, hMb.2, hKb.1, hKb.2]

/-- **C106.** An ideal histogram gives exactly the reference. -/
theorem fes_ideal {d : Nat} (p : Potential ℝ d) (pos : List (Fin d → ℝ)) (counts : Nd Nat) (kt c : ℝ) (hk : 0 < kt)
    (hc : 0 < c) (hne : pos ≠ []) (hl : counts.flat.length = pos.length)
    (h : ∀ (i n : Nat) (x : Fin d → ℝ), counts.flat[i]? = some n → pos[i]? = some x → (n : ℝ) = c * Real.exp (-p.energy x / kt)) :
    ∃ fes ref, calculateFes counts kt true = .ok fes ∧ calculateReference p pos true = .ok ref ∧
      fes.flat = ref.map (fun r : ℝ => (r : WithTop ℝ)) := by
  obtain ⟨fes, ref, h1, h2, h3, h4, h5⟩ := fes_accuracy p pos counts kt (Real.log c) 0 hk hne ⟨hl, fun i n x hi hx => by
    have := h i n x hi hx
    have hpos : (0 : ℝ) < n := by rw [this]; positivity
    refine ⟨by rintro rfl; simp at hpos, ?_⟩
    rw [this, Real.log_mul hc.ne' (Real.exp_pos _).ne', Real.log_exp]
    simp [neg_div]⟩
  refine ⟨fes, ref, h1, h2, ?_⟩
  apply List.ext_getElem?
  intro i
  rw [List.getElem?_map]
  cases hr : ref[i]? with
  | none =>
    rw [List.getElem?_eq_none_iff] at hr
    rw [List.getElem?_eq_none (by omega)]
    rfl
  | some r =>
    obtain ⟨f, hf, hfr⟩ := h5 i r hr
    rw [mul_zero, abs_nonpos_iff, sub_eq_zero] at hfr
    rw [hf, hfr]
    rfl

/-! ### Free energy differences -/

/-- Masked sums of two lists with bounded ratios have the same bounds of their ratio. -/
theorem masked_ratio (lo hi : ℝ) (a b : List ℝ) (mask : List Bool)
    (h : List.Forall₂ (fun x y => 0 < y ∧ lo * y ≤ x ∧ x ≤ hi * y) a b) :
    let sum := fun l : List ℝ => (List.zipWith (fun p (t : Bool) => if t then p else 0) l mask).sum
    0 ≤ sum b ∧ lo * sum b ≤ sum a ∧ sum a ≤ hi * sum b ∧ (mask.length = a.length → true ∈ mask → 0 < sum b) := by
  induction h generalizing mask with
  | nil =>
    simp only [List.zipWith_nil_left, List.sum_nil, mul_zero, le_refl, true_and, List.length_nil]
    intro h1 h2
    rw [List.length_eq_zero_iff.mp h1] at h2
    simp at h2
  | @cons x y a b hxy _ ih =>
    cases mask with
    | nil => simp
    | cons t mask =>
      obtain ⟨h1, h2, h3, h4⟩ := ih mask
      obtain ⟨g1, g2, g3⟩ := hxy
      cases t with
      | false =>
        simp only [List.zipWith_cons_cons, List.sum_cons, Bool.false_eq_true, if_false, zero_add]
        exact ⟨h1, h2, h3, fun hl ht => h4 (by simpa using hl) (by simpa using ht)⟩
      | true =>
        simp only [List.zipWith_cons_cons, List.sum_cons, if_true]
        exact ⟨by linarith, by linarith, by linarith, fun _ _ => by linarith⟩

/-- The free energy differences of the reference itself, in terms of the Boltzmann factors. -/
noncomputable def referenceDeltaF {d : Nat} (p : Potential ℝ d) (pos : List (Fin d → ℝ)) (kt : ℝ)
    (state first : List Bool) : ℝ :=
  -kt * Real.log ((List.zipWith (fun w (t : Bool) => if t then w else 0) (pos.map (fun x => Real.exp (-p.energy x / kt))) state).sum
    / (List.zipWith (fun w (t : Bool) => if t then w else 0) (pos.map (fun x => Real.exp (-p.energy x / kt))) first).sum)

/-- The logarithm of the counts in a state is near the one of its Boltzmann weight. -/
theorem near_state {d : Nat} (p : Potential ℝ d) (pos : List (Fin d → ℝ)) (counts : List Nat) (kt C ε : ℝ)
    (h : NearBoltzmann p pos kt counts C ε) (mask : List Bool) (hm : mask.length = counts.length) (ht : true ∈ mask) :
    let w := (List.zipWith (fun w (t : Bool) => if t then w else 0) (pos.map (fun x => Real.exp (-p.energy x / kt))) mask).sum
    0 < w ∧ countsIn counts mask ≠ 0 ∧ |Real.log (countsIn counts mask) - (C + Real.log w)| ≤ ε := by
  intro w
  obtain ⟨hl, h⟩ := h
  have hf : List.Forall₂ (fun x y => 0 < y ∧ Real.exp (C - ε) * y ≤ x ∧ x ≤ Real.exp (C + ε) * y)
      (counts.map (fun n : Nat => (n : ℝ) / 1)) (pos.map (fun x => Real.exp (-p.energy x / kt))) := by
    rw [List.forall₂_iff_get]
    refine ⟨by simp [hl], fun i h1 h2 => ?_⟩
    simp only [List.length_map] at h1 h2
    simp only [List.get_eq_getElem, List.getElem_map, div_one]
    obtain ⟨h0, hb⟩ := h i _ _ (List.getElem?_eq_getElem h1) (List.getElem?_eq_getElem h2)
    have hpos : (0 : ℝ) < (counts[i] : ℝ) := by positivity
    rw [abs_le] at hb
    refine ⟨Real.exp_pos _, ?_, ?_⟩
    · rw [← Real.exp_add, ← Real.le_log_iff_exp_le hpos, neg_div]
      linarith [hb.1]
    · rw [← Real.exp_add, ← Real.log_le_iff_le_exp hpos, neg_div]
      linarith [hb.2]
  obtain ⟨_, h2, h3, h4⟩ := masked_ratio _ _ _ _ mask hf
  beta_reduce at h2 h3
  rw [countsIn_sum, div_one] at h2 h3
  have hw : 0 < w := h4 (by simpa using hm) ht
  have hS : (0 : ℝ) < countsIn counts mask := lt_of_lt_of_le (mul_pos (Real.exp_pos _) hw) h2
  refine ⟨hw, by exact_mod_cast hS.ne', ?_⟩
  have l1 := Real.log_le_log (mul_pos (Real.exp_pos _) hw) h2
  have l2 := Real.log_le_log hS h3
  rw [Real.log_mul (Real.exp_pos _).ne' hw.ne', Real.log_exp] at l1 l2
  rw [abs_le]
  constructor <;> linarith

/-- **C106.** Every free energy difference differs from the one of the potential by at most `2 kT ε`. -/
theorem deltaF_accuracy {d : Nat} (p : Potential ℝ d) (pos : List (Fin d → ℝ)) (counts : Nd Nat) (kt C ε : ℝ) (hk : 0 < kt)
    (hne : pos ≠ []) (h : NearBoltzmann p pos kt counts.flat C ε) (first : List Bool) (states : List (List Bool))
    (hm : ∀ m ∈ first :: states, m.length = pos.length ∧ true ∈ m) :
    ∃ D, (do let fes ← calculateFes counts kt true
             calculateDeltaF fes kt (first :: states)) = .ok D ∧
      List.Forall₂ (fun x s => |x - referenceDeltaF p pos kt s first| ≤ 2 * kt * ε) D states := by
  have hl := h.1
  have hc : counts.flat ≠ [] := by
    intro h0
    rw [h0] at hl
    exact hne (List.length_eq_zero_iff.mp hl.symm)
  have hn : ∀ m ∈ first :: states, _ := fun m hm' =>
    near_state p pos counts.flat kt C ε h m ((hm m hm').1.trans hl.symm) (hm m hm').2
  refine ⟨_, deltaF_spec counts kt hk _ hc (fun m hm' => (hm m hm').1.trans hl.symm) (fun m hm' => (hn m hm').2.1), ?_⟩
  rw [List.tail_cons, List.forall₂_map_left_iff, List.forall₂_same]
  intro s hs
  obtain ⟨a1, a2, a3⟩ := hn s (List.mem_cons_of_mem _ hs)
  obtain ⟨b1, b2, b3⟩ := hn first List.mem_cons_self
  simp only [List.headD_cons, referenceDeltaF]
  rw [Real.log_div (by exact_mod_cast a2) (by exact_mod_cast b2), Real.log_div a1.ne' b1.ne', ← mul_sub, abs_mul, abs_neg,
    abs_of_pos hk, show 2 * kt * ε = kt * (2 * ε) by ring]
  refine mul_le_mul_of_nonneg_left ?_ hk.le
  rw [abs_le] at a3 b3 ⊢
  constructor <;> linarith [a3.1, a3.2, b3.1, b3.2]

/-! ### Examples -/

/-- A linear potential, for the examples. -/
def rampPotential : Potential ℝ 1 :=
  { energy := fun x => x 0, force := fun _ _ => -1, evaluate := fun x => (x 0, fun _ => -1), ranges := [(0, 1)], bc := none }

/-- The counts 4, 2 are an ideal histogram at 0 and ln 2, the FES is 0, ln 2. -/
example : ∃ fes ref, calculateFes ⟨[2], [4, 2]⟩ 1 true = .ok fes ∧
    calculateReference rampPotential [fun _ => 0, fun _ => Real.log 2] true = .ok ref ∧
    fes.flat = ref.map (fun r : ℝ => (r : WithTop ℝ)) := by
  refine fes_ideal rampPotential _ ⟨[2], [4, 2]⟩ 1 4 one_pos (by norm_num) (by simp) rfl fun i n x hi hx => ?_
  match i with
  | 0 =>
    simp at hi hx
    subst hi hx
    simp [rampPotential]
  | 1 =>
    simp at hi hx
    subst hi hx
    simp only [rampPotential, div_one, Real.exp_neg, Real.exp_log (by norm_num : (0 : ℝ) < 2)]
    norm_num
  | i + 2 => simp at hi

/-- The counts 5, 2 are within a factor 5/4 of it. -/
theorem near_example : NearBoltzmann rampPotential [fun _ => 0, fun _ => Real.log 2] 1 [5, 2] (Real.log 4) (Real.log (5 / 4)) := by
  have h4 : Real.log 4 = Real.log 2 + Real.log 2 := by
    rw [← Real.log_mul (by norm_num) (by norm_num)]
    norm_num
  have h5 : 0 ≤ Real.log (5 / 4) := Real.log_nonneg (by norm_num)
  refine ⟨rfl, fun i n x hi hx => ?_⟩
  match i with
  | 0 =>
    simp at hi hx
    subst hi hx
    refine ⟨by norm_num, ?_⟩
    simp only [rampPotential, zero_div, sub_zero]
    rw [Real.log_div (by norm_num) (by norm_num)] at h5 ⊢
    exact (abs_of_nonneg (by exact_mod_cast h5)).le
  | 1 =>
    simp at hi hx
    subst hi hx
    refine ⟨by norm_num, ?_⟩
    simp only [rampPotential, div_one, h4]
    simpa using h5
  | i + 2 => simp at hi

example : ∃ D, (do let fes ← calculateFes ⟨[2], [5, 2]⟩ 1 true
                   calculateDeltaF fes 1 [[true, false], [false, true]]) = .ok D ∧
    List.Forall₂ (fun x s => |x - referenceDeltaF rampPotential [fun _ => 0, fun _ => Real.log 2] 1 s [true, false]| ≤
      2 * 1 * Real.log (5 / 4)) D [[false, true]] :=
  deltaF_accuracy rampPotential _ ⟨[2], [5, 2]⟩ 1 _ _ one_pos (by simp) near_example _ _ (by simp)

end Bdld
