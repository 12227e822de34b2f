import Verif.Lemmas.Polynomial
import Mathlib.Data.Fin.VecNotation
import Mathlib.Algebra.BigOperators.Group.List.Basic
import Mathlib.Tactic.FinCases
import Mathlib.Tactic.NormNum

/-
C31, C35: polynomial potentials and coefficient files (exact real arithmetic).
-/

namespace Bdld
open Spec

/-! ### Energy and force (C31) -/

/-- **C31.** The energy is the sum of coefficient times product of powers. -/
theorem poly_energy {d : Nat} (a : NdArr d) (h : ∀ k, 0 < a.shape k) (x : Fin d → ℝ) :
    polyEnergy a x = ∑ e ∈ box a.shape, a.val e * ∏ k, x k ^ e k := polyvalNd_eq d x a h

/-- **C31.** The force is minus the gradient of the energy: its components are minus the partial derivatives,
and the energy has the corresponding total derivative. -/
theorem poly_force {d : Nat} (a : NdArr d) (h : ∀ k, 0 < a.shape k) (x : Fin d → ℝ) :
    (∀ k, HasDerivAt (fun t => polyEnergy a (Function.update x k t)) (-polyForce a x k) (x k)) ∧
    HasFDerivAt (polyEnergy a)
      (∑ k, (-polyForce a x k) • ContinuousLinearMap.proj (R := ℝ) (φ := fun _ : Fin d => ℝ) k) x := by
  have he : polyEnergy a = polySum a.shape a.val := funext fun y => polyvalNd_eq d y a h
  have hk : ∀ k, HasDerivAt (fun t => polyEnergy a (Function.update x k t)) (-polyForce a x k) (x k) := by
    intro k
    have h1 : -polyForce a x k = polySum (polyder a k).shape (polyder a k).val x := by
      unfold polyForce
      rw [neg_neg, polyvalNd_eq d x _ (fun j => polyder_shape_pos a h k j)]
    rw [h1, polyder_sum, he]
    exact polySum_hasDerivAt a.shape a.val x k
  refine ⟨hk, hasFDerivAt_of_partials _ x _ ?_ hk⟩
  rw [he]
  exact (polySum_differentiable a.shape a.val).differentiableAt

/-- **C31.** In one, two and three dimensions `PolynomialPotential` is created with these functions and
without boundary condition; for a missing coefficient array (dimension 0) or more than three dimensions an
exception is raised. -/
theorem poly_new {d : Nat} (a : NdArr d) (ranges : Option (List (ℝ × ℝ))) :
    (1 ≤ d → d ≤ 3 → ∃ p, newPolynomial a ranges = .ok p ∧ p.energy = polyEnergy a ∧ p.force = polyForce a ∧
      (∀ x, p.evaluate x = (p.energy x, p.force x)) ∧ p.ranges = ranges.getD [] ∧ p.bc = none) ∧
    (d = 0 → newPolynomial a ranges = .error .valueError) ∧
    (3 < d → newPolynomial a ranges = .error .notImplementedError) := by
  unfold newPolynomial
  refine ⟨fun h1 h2 => ?_, fun h => ?_, fun h => ?_⟩
  · rw [if_neg (by omega), if_neg (by omega)]
    exact ⟨_, rfl, rfl, rfl, fun _ => rfl, rfl, rfl⟩
  · rw [if_neg (by omega), if_pos h]
  · rw [if_pos h]

/-- The double well `x^4 - 4 x^2` at `x = 1`: energy -3, force 4. -/
noncomputable def doubleWell : NdArr 1 := ⟨fun _ => 5, fun e => if e 0 = 4 then 1 else if e 0 = 2 then -4 else 0⟩

example : polyEnergy doubleWell (fun _ => 1) = -3 ∧ polyForce doubleWell (fun _ => 1) 0 = 4 := by
  have r4 : List.range 4 = [0, 1, 2, 3] := by decide
  have r3 : List.range 3 = [0, 1, 2] := by decide
  constructor
  · simp [polyEnergy, polyvalNd, doubleWell, horner, r4]
    norm_num
  · simp [polyForce, polyvalNd, polyder, doubleWell, horner, r3]
    norm_num

/-! ### Coefficient files (C35) -/

/-- A row with natural exponents. -/
def coeffRow {d : Nat} (p : (Fin d → Nat) × ℝ) : CoeffRow d := ⟨fun k => (p.1 k : Int), p.2⟩

theorem npIndices_nat : (d : Nat) → (s e : Fin d → Nat) → (∀ k, e k < s k) →
    npIndices d s (fun k => (e k : Int)) = .ok e
  | 0, s, e, _ => congrArg Except.ok (Subsingleton.elim _ _)
  | d + 1, s, e, h => by
    unfold npIndices
    have h0 : npIndex (s 0) (e 0 : Int) = .ok (e 0) := by
      have := h 0
      unfold npIndex
      rw [if_pos (by omega)]
      simp
    have h1 : npIndices d (Fin.tail s) (Fin.tail (fun k => (e k : Int))) = .ok (Fin.tail e) :=
      npIndices_nat d (Fin.tail s) (Fin.tail e) (fun k => h k.succ)
    rw [h0, ok_bind, h1, ok_bind, pure_eq_ok, Fin.cons_self_tail]

theorem foldlM_setCoeff {d : Nat} (s : Fin d → Nat) (l : List ((Fin d → Nat) × ℝ))
    (h : ∀ p ∈ l, ∀ k, p.1 k < s k) : ∀ v : (Fin d → Nat) → ℝ,
    (l.map coeffRow).foldlM setCoeff ⟨s, v⟩ =
      .ok ⟨s, fun e => ((l.filter (fun p => p.1 = e)).getLast?.map Prod.snd).getD (v e)⟩ := by
  induction l with
  | nil => intro v; rfl
  | cons p l ih =>
    intro v
    rw [List.map_cons, List.foldlM_cons]
    have h1 : setCoeff ⟨s, v⟩ (coeffRow p) = .ok ⟨s, Function.update v p.1 p.2⟩ := by
      unfold setCoeff coeffRow
      rw [npIndices_nat d s p.1 (h p (by simp)), ok_bind]; rfl
    rw [h1, ok_bind, ih (fun q hq => h q (by simp [hq]))]
    congr 2
    funext e
    by_cases he : p.1 = e
    · rw [List.filter_cons_of_pos (by simpa using he), List.getLast?_cons, ← he]
      rcases (l.filter (fun q => q.1 = p.1)).getLast? with _ | q <;> simp
    · rw [List.filter_cons_of_neg (by simpa using he)]
      rw [Function.update_of_ne (Ne.symm he)]

theorem maxExp_spec {d : Nat} (k : Fin d) (rows : List (CoeffRow d)) : ∀ row : CoeffRow d,
    (∀ r ∈ row :: rows, r.exps k ≤ maxExp row rows k) ∧ ∃ r ∈ row :: rows, r.exps k = maxExp row rows k := by
  unfold maxExp
  suffices h : ∀ m : Int, (∀ r ∈ rows, r.exps k ≤ rows.foldl (fun m r => if m < r.exps k then r.exps k else m) m) ∧
      m ≤ rows.foldl (fun m r => if m < r.exps k then r.exps k else m) m ∧
      (m = rows.foldl (fun m r => if m < r.exps k then r.exps k else m) m ∨
        ∃ r ∈ rows, r.exps k = rows.foldl (fun m r => if m < r.exps k then r.exps k else m) m) by
    intro row
    obtain ⟨h1, h2, h3⟩ := h (row.exps k)
    refine ⟨fun r hr => ?_, ?_⟩
    · rcases List.mem_cons.1 hr with rfl | hr
      · exact h2
      · exact h1 r hr
    · rcases h3 with h3 | ⟨r, hr, h3⟩
      · exact ⟨row, by simp, h3⟩
      · exact ⟨r, by simp [hr], h3⟩
  induction rows with
  | nil => intro m; simp
  | cons a rows ih =>
    intro m
    rw [List.foldl_cons]
    obtain ⟨h1, h2, h3⟩ := ih (if m < a.exps k then a.exps k else m)
    have h4 : m ≤ (if m < a.exps k then a.exps k else m) ∧ a.exps k ≤ (if m < a.exps k then a.exps k else m) := by
      split <;> omega
    refine ⟨fun r hr => ?_, h4.1.trans h2, ?_⟩
    · rcases List.mem_cons.1 hr with rfl | hr
      · exact h4.2.trans h2
      · exact h1 r hr
    · rcases h3 with h3 | ⟨r, hr, h3⟩
      · by_cases hm : m < a.exps k
        · rw [if_pos hm] at h3 ⊢
          exact Or.inr ⟨a, by simp, h3⟩
        · rw [if_neg hm] at h3 ⊢
          exact Or.inl h3
      · exact Or.inr ⟨r, by simp [hr], h3⟩

/-- **C35.** A coefficient file with at least two rows is read as the array whose entry at the listed exponents
is the listed value (the last one if listed several times) and 0 elsewhere; its extent is the highest exponent
+ 1 in every dimension. (Missing for C35: files with a single row, see `coeff_file_false`.) -/
theorem coeff_file_partial {d : Nat} (l : List ((Fin d → Nat) × ℝ)) (hl : 2 ≤ l.length) :
    ∃ a, coefficientsFromFile (l.map coeffRow) = .ok a ∧
      (∀ e, a.val e = listedValue l e) ∧
      (∀ p ∈ l, ∀ k, p.1 k < a.shape k) ∧ (∀ k, ∃ p ∈ l, a.shape k = p.1 k + 1) := by
  match l, hl with
  | p :: q :: l, _ =>
    have hs : ∀ k, ∃ r ∈ p :: q :: l, (r.1 k : Int) = maxExp (coeffRow p) ((q :: l).map coeffRow) k := by
      intro k
      obtain ⟨r, hr, h⟩ := (maxExp_spec k ((q :: l).map coeffRow) (coeffRow p)).2
      rw [← List.map_cons] at hr
      obtain ⟨r', hr', rfl⟩ := List.mem_map.1 hr
      exact ⟨r', hr', h⟩
    have hb : ∀ r ∈ p :: q :: l, ∀ k, (r.1 k : Int) ≤ maxExp (coeffRow p) ((q :: l).map coeffRow) k := by
      intro r hr k
      have h := (maxExp_spec k ((q :: l).map coeffRow) (coeffRow p)).1 (coeffRow r) (by
        rw [← List.map_cons]; exact List.mem_map_of_mem hr)
      exact h
    refine ⟨⟨fun k => (maxExp (coeffRow p) ((q :: l).map coeffRow) k + 1).toNat, listedValue (p :: q :: l)⟩,
      ?_, fun _ => rfl, fun r hr k => ?_, fun k => ?_⟩
    · have h1 : coefficientsFromFile ((p :: q :: l).map coeffRow) =
          if ∃ k, maxExp (coeffRow p) ((q :: l).map coeffRow) k + 1 < 0 then .error .valueError
          else ((p :: q :: l).map coeffRow).foldlM setCoeff
            ⟨fun k => (maxExp (coeffRow p) ((q :: l).map coeffRow) k + 1).toNat, fun _ => 0⟩ := rfl
      rw [h1, if_neg]
      · rw [foldlM_setCoeff]
        · rfl
        · intro r hr k
          have := hb r hr k
          omega
      · rintro ⟨k, hk⟩
        obtain ⟨r, _, hr⟩ := hs k
        omega
    · have := hb r hr k
      show r.1 k < (maxExp (coeffRow p) ((q :: l).map coeffRow) k + 1).toNat
      omega
    · obtain ⟨r, hr, h⟩ := hs k
      refine ⟨r, hr, ?_⟩
      show (maxExp (coeffRow p) ((q :: l).map coeffRow) k + 1).toNat = r.1 k + 1
      omega

theorem sum_listed {d : Nat} (l : List ((Fin d → Nat) × ℝ)) (hnd : (l.map Prod.fst).Nodup)
    (g : (Fin d → Nat) → ℝ) (s : Finset (Fin d → Nat)) (hs : ∀ p ∈ l, p.1 ∈ s) :
    ∑ e ∈ s, listedValue l e * g e = (l.map (fun p => p.2 * g p.1)).sum := by
  induction l with
  | nil => simp [listedValue]
  | cons p l ih =>
    rw [List.map_cons, List.nodup_cons] at hnd
    rw [List.map_cons, List.sum_cons, ← ih hnd.2 (fun q hq => hs q (by simp [hq]))]
    have h1 : ∀ e, listedValue (p :: l) e = (if e = p.1 then p.2 else 0) + listedValue l e := by
      intro e
      unfold listedValue
      by_cases he : p.1 = e
      · rw [List.filter_cons_of_pos (by simpa using he), if_pos he.symm]
        have h2 : l.filter (fun q => q.1 = e) = [] := by
          rw [List.filter_eq_nil_iff]
          intro q hq
          have : q.1 ≠ e := by
            rintro rfl
            exact hnd.1 (by rw [he]; exact List.mem_map_of_mem hq)
          simpa using this
        rw [h2]; simp
      · rw [List.filter_cons_of_neg (by simpa using he), if_neg (Ne.symm he), zero_add]
    simp only [h1, add_mul, Finset.sum_add_distrib]
    congr 1
    rw [Finset.sum_eq_single p.1]
    · simp
    · intro b _ hb; simp [hb]
    · intro h; exact absurd (hs p (by simp)) h

/-- **C35.** If no exponents are listed twice, the energy of the potential read from the file is the sum of the
listed monomials. -/
theorem coeff_file_energy_partial {d : Nat} (l : List ((Fin d → Nat) × ℝ)) (hl : 2 ≤ l.length)
    (hnd : (l.map Prod.fst).Nodup) (a : NdArr d) (ha : coefficientsFromFile (l.map coeffRow) = .ok a)
    (x : Fin d → ℝ) :
    polyEnergy a x = (l.map (fun p => p.2 * ∏ k, x k ^ p.1 k)).sum := by
  obtain ⟨a', h1, h2, h3, h4⟩ := coeff_file_partial l hl
  rw [ha] at h1
  obtain rfl : a = a' := by simpa using h1
  rw [poly_energy a (fun k => by obtain ⟨p, _, hp⟩ := h4 k; omega)]
  simp only [h2]
  exact sum_listed l hnd (fun e => ∏ k, x k ^ e k) (box a.shape)
    (fun p hp => Fintype.mem_piFinset.2 (fun k => Finset.mem_range.2 (h3 p hp k)))

/-- The file with the rows `0 2 5.0` and `1 0 3.0` stands for `5 y^2 + 3 x`. -/
example : ∃ a, coefficientsFromFile ([(![0, 2], 5), (![1, 0], 3)].map (coeffRow (d := 2))) = .ok a ∧
    ∀ x : Fin 2 → ℝ, polyEnergy a x = 5 * x 1 ^ 2 + 3 * x 0 := by
  obtain ⟨a, ha, _⟩ := coeff_file_partial (d := 2) [(![0, 2], 5), (![1, 0], 3)] (by simp)
  refine ⟨a, ha, fun x => ?_⟩
  rw [coeff_file_energy_partial _ (by simp) (by
    simp only [List.map_cons, List.map_nil, List.nodup_cons, List.mem_singleton, List.not_mem_nil,
      not_false_eq_true, List.nodup_nil, and_true]
    intro h; exact absurd (congrFun h 0) (by decide)) a ha]
  simp [Fin.prod_univ_two]

/-- **C35 is false:** a coefficient file with a single row cannot be read (`np.genfromtxt` returns a
one-dimensional array and `file_data[:, 0]` raises `IndexError`). -/
theorem coeff_file_false : ¬ ∀ l : List ((Fin 2 → Nat) × ℝ), l ≠ [] →
    ∃ a, coefficientsFromFile (l.map coeffRow) = .ok a := by
  intro h
  obtain ⟨a, ha⟩ := h [(![0, 2], 5)] (by simp)
  exact absurd ha (by simp [coefficientsFromFile])

end Bdld
