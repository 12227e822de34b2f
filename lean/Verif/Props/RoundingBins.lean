import Verif.Model.FloatHistogram
import Verif.Spec.RoundingBins
import Verif.Lemmas.Rounding
import Verif.Lemmas.Bins
import Verif.Props.Histogram
import Verif.Props.RoundingFes
import Verif.Props.RoundingPoly

/-
C124: histograms with computed edges and positions.
-/

namespace Bdld
open Spec

section
variable {F : Type} [Add F] [Sub F] [Mul F] [Div F] [Neg F] [LT F] [DecidableLT F] {A : Rounding F}

theorem eqF_iff {a b : F} (ha : A.fin a) (hb : A.fin b) : eqF a b = true ↔ A.val a = A.val b := by
  unfold eqF
  simp only [Bool.and_eq_true, Bool.not_eq_true', decide_eq_false_iff_not, A.lt a b ha hb, A.lt b a hb ha, not_lt]
  exact ⟨fun h => le_antisymm h.2 h.1, fun h => ⟨h.ge, h.le⟩⟩

/-- For finite numbers the bin is the one of the values. -/
theorem binIndexF_val (edges : List F) (x : F) (he : ∀ e ∈ edges, A.fin e) (hx : A.fin x) :
    binIndexF edges x = binIndex (edges.map A.val) (A.val x) := by
  have h1 : searchRightF edges x = searchRight (edges.map A.val) (A.val x) := by
    unfold searchRightF searchRight
    rw [List.countP_map]
    refine List.countP_congr fun e h => ?_
    simp [A.lt x e hx (he e h)]
  have h2 : (edges.getLast?.map (eqF · x)).getD false = true ↔ (edges.map A.val).getLast? = some (A.val x) := by
    rw [List.getLast?_map]
    cases hl : edges.getLast? with
    | none => simp
    | some e =>
      simp only [Option.map_some, Option.getD_some, Option.some.injEq]
      exact eqF_iff (he e (List.mem_of_getLast? hl)) hx
  unfold binIndexF binIndex
  simp only [h1, h2, List.length_map]

theorem binOfF_val (bins : List (List F)) (p : List F) (hb : ∀ e ∈ bins, ∀ a ∈ e, A.fin a) (hp : ∀ a ∈ p, A.fin a) :
    binOfF bins p = binOf (bins.map (List.map A.val)) (p.map A.val) := by
  induction bins generalizing p with
  | nil => cases p <;> rfl
  | cons e es ih =>
    cases p with
    | nil => rfl
    | cons x xs =>
      simp only [binOfF, List.map_cons, binOf]
      rw [binIndexF_val e x (hb e (by simp)) (hp x (by simp)), ih xs (fun e he => hb e (by simp [he])) (fun a ha => hp a (by simp [ha]))]
      cases binIndex (e.map A.val) (A.val x) <;> cases binOf (es.map (List.map A.val)) (xs.map A.val) <;> rfl

/-! ### Errors of the edges -/

set_option maxHeartbeats 800000 in
/-- **C124.** Computed edges: the last one is the upper end of the range, all have an error of at most `edgeErr`. -/
theorem linEdgesF_near {zero : F} {ofNat : Nat → F} (h0 : A.fin zero ∧ A.val zero = 0) {lo hi : F} {n : Nat} (hn : 0 < n)
    (hnat : ∀ i ≤ n, A.fin (ofNat i) ∧ A.val (ofNat i) = i) (hlo : A.fin lo) (hhi : A.fin hi) {M : ℝ} (hlM : |A.val lo| ≤ M)
    (hhM : |A.val hi| ≤ M) (hlt : A.val lo < A.val hi) (hη : A.η < (1 - A.u) ^ 2 * (A.val hi - A.val lo) / n) (hu : A.u < 1)
    (hΩ : (1 + A.u) ^ 3 * (A.val hi - A.val lo) + ((1 + A.u) * n + 1) * A.η + M ≤ A.Ω) :
    NearEdges A (edgeErr A.u A.η (A.val hi - A.val lo) M n) (linEdgesF zero ofNat lo hi n) (linEdges (A.val lo) (A.val hi) n) := by
  have hu0 := A.u_nonneg
  have hη0 := A.η_nonneg
  have hnR : (0 : ℝ) < n := by exact_mod_cast hn
  have hnR1 : (1 : ℝ) ≤ n := by exact_mod_cast hn
  have hM0 : 0 ≤ M := (abs_nonneg _).trans hlM
  set Δ := A.val hi - A.val lo with hΔ
  have hΔ0 : 0 < Δ := by rw [hΔ]; linarith
  have hc1 : Δ ≤ (1 + A.u) * Δ := by nlinarith
  have hc3 : (1 + A.u) * Δ ≤ (1 + A.u) ^ 3 * Δ := by
    have : 1 ≤ (1 + A.u) ^ 2 := one_le_pow₀ (by linarith)
    have h2 := mul_le_mul_of_nonneg_right this (by positivity : 0 ≤ (1 + A.u) * Δ)
    linarith
  have hηn : 0 ≤ ((1 + A.u) * n + 1) * A.η := by positivity
  -- difference
  obtain ⟨d1, d2⟩ := A.sub hi lo hhi hlo (by rw [← hΔ, abs_of_pos hΔ0]; linarith)
  rw [← hΔ, abs_of_pos hΔ0] at d2
  have d3 := abs_le.1 d2
  have dpos : 0 < A.val (hi - lo) := by
    have : 0 < (1 - A.u) * Δ := mul_pos (by linarith) hΔ0
    linarith
  have dle : A.val (hi - lo) ≤ (1 + A.u) * Δ := by linarith
  -- step
  obtain ⟨n1, n2⟩ := hnat n le_rfl
  have hq : A.val (hi - lo) / n ≤ (1 + A.u) * Δ := (div_le_self dpos.le hnR1).trans dle
  obtain ⟨s1, s2⟩ := A.div (hi - lo) (ofNat n) d1 n1 (by rw [n2]; exact hnR.ne') (by
    rw [n2, abs_of_pos (div_pos dpos hnR)]
    linarith)
  rw [n2, abs_of_pos (div_pos dpos hnR)] at s2
  have s3 := abs_le.1 s2
  have slo : (1 - A.u) * Δ / n ≤ A.val (hi - lo) / n := div_le_div_of_nonneg_right (by linarith) hnR.le
  have spos : 0 < A.val ((hi - lo) / ofNat n) := by
    have h1 : (1 - A.u) * ((1 - A.u) * Δ / n) ≤ (1 - A.u) * (A.val (hi - lo) / n) :=
      mul_le_mul_of_nonneg_left slo (by linarith)
    have h2 : (1 - A.u) * ((1 - A.u) * Δ / n) = (1 - A.u) ^ 2 * Δ / n := by ring
    linarith
  have hne : eqF ((hi - lo) / ofNat n) zero = false := by
    rw [Bool.eq_false_iff]
    intro h
    rw [eqF_iff s1 h0.1, h0.2] at h
    linarith
  -- error of the step: relative (1+u)^2 - 1, absolute η
  have sle : A.val (hi - lo) / n ≤ (1 + A.u) * (Δ / n) := by
    rw [← mul_div_assoc]
    exact div_le_div_of_nonneg_right dle hnR.le
  have serr : |A.val ((hi - lo) / ofNat n) - Δ / n| ≤ ((1 + A.u) ^ 2 - 1) * (Δ / n) + A.η := by
    have e1 : A.val ((hi - lo) / ofNat n) - Δ / n =
        (A.val ((hi - lo) / ofNat n) - A.val (hi - lo) / n) + (A.val (hi - lo) - Δ) / n := by ring
    have e2 : |(A.val (hi - lo) - Δ) / n| ≤ A.u * (Δ / n) := by
      rw [abs_div, abs_of_pos hnR, ← mul_div_assoc]
      exact div_le_div_of_nonneg_right d2 hnR.le
    have e3 := mul_le_mul_of_nonneg_left sle hu0
    have e4 := abs_add_le (A.val ((hi - lo) / ofNat n) - A.val (hi - lo) / n) ((A.val (hi - lo) - Δ) / n)
    rw [e1]
    linarith
  have key : ∀ i < n, A.fin (ofNat i * ((hi - lo) / ofNat n) + lo) ∧
      |A.val (ofNat i * ((hi - lo) / ofNat n) + lo) - (A.val lo + (i : ℝ) * (Δ / n))| ≤ edgeErr A.u A.η Δ M n := by
    intro i hi'
    have hiR : (i : ℝ) ≤ n := by exact_mod_cast hi'.le
    have hi0 : (0 : ℝ) ≤ i := Nat.cast_nonneg i
    obtain ⟨m1, m2⟩ := hnat i hi'.le
    have hw0 : 0 < Δ / n := div_pos hΔ0 hnR
    have hiw : (i : ℝ) * (Δ / n) ≤ Δ := by
      have := mul_le_mul_of_nonneg_right hiR hw0.le
      rwa [mul_div_cancel₀ _ hnR.ne'] at this
    have hiw0 : 0 ≤ (i : ℝ) * (Δ / n) := mul_nonneg hi0 hw0.le
    have sabs := abs_le.1 serr
    have hprod : |(i : ℝ) * A.val ((hi - lo) / ofNat n) - i * (Δ / n)| ≤ ((1 + A.u) ^ 2 - 1) * (i * (Δ / n)) + n * A.η := by
      rw [← mul_sub, abs_mul, abs_of_nonneg hi0]
      refine (mul_le_mul_of_nonneg_left serr hi0).trans ?_
      have := mul_le_mul_of_nonneg_right hiR hη0
      linarith
    have hpabs : |(i : ℝ) * A.val ((hi - lo) / ofNat n)| ≤ (1 + A.u) ^ 2 * (i * (Δ / n)) + n * A.η := by
      have := abs_le.1 hprod
      rw [abs_le]
      constructor <;> linarith
    have hsq : (1 + A.u) ^ 2 * (i * (Δ / n)) ≤ (1 + A.u) ^ 3 * Δ := by
      have h1 : (1 + A.u) ^ 2 * (i * (Δ / n)) ≤ (1 + A.u) ^ 2 * Δ := mul_le_mul_of_nonneg_left hiw (by positivity)
      have h2 : 0 ≤ A.u * ((1 + A.u) ^ 2 * Δ) := by positivity
      linarith
    have hnη : (n : ℝ) * A.η ≤ ((1 + A.u) * n + 1) * A.η := by
      have : 0 ≤ A.u * (n * A.η) := by positivity
      linarith
    obtain ⟨p1, p2⟩ := A.mul (ofNat i) ((hi - lo) / ofNat n) m1 s1 (by rw [m2]; linarith)
    rw [m2] at p2
    -- error of the product
    have perr : |A.val (ofNat i * ((hi - lo) / ofNat n)) - i * (Δ / n)| ≤
        ((1 + A.u) ^ 3 - 1) * Δ + ((1 + A.u) * n + 1) * A.η := by
      have e1 : A.val (ofNat i * ((hi - lo) / ofNat n)) - i * (Δ / n) =
          (A.val (ofNat i * ((hi - lo) / ofNat n)) - i * A.val ((hi - lo) / ofNat n)) +
            (i * A.val ((hi - lo) / ofNat n) - i * (Δ / n)) := by ring
      have e2 := abs_add_le (A.val (ofNat i * ((hi - lo) / ofNat n)) - i * A.val ((hi - lo) / ofNat n))
            (i * A.val ((hi - lo) / ofNat n) - i * (Δ / n))
      have e3 := mul_le_mul_of_nonneg_left hpabs hu0
      rw [e1]
      have e4 : ((1 + A.u) ^ 3 - 1) * (i * (Δ / n)) ≤ ((1 + A.u) ^ 3 - 1) * Δ := by
        refine mul_le_mul_of_nonneg_left hiw ?_
        have : 1 ≤ (1 + A.u) ^ 3 := one_le_pow₀ (by linarith)
        linarith
      have e5 : A.u * ((1 + A.u) ^ 2 * (i * (Δ / n)) + n * A.η) + A.η + (((1 + A.u) ^ 2 - 1) * (i * (Δ / n)) + n * A.η) =
          ((1 + A.u) ^ 3 - 1) * (i * (Δ / n)) + ((1 + A.u) * n + 1) * A.η := by ring
      linarith
    -- exact edge
    have hedge : |A.val lo + (i : ℝ) * (Δ / n)| ≤ M := by
      have h1 := abs_le.1 hlM
      have h2 := abs_le.1 hhM
      rw [abs_le]
      constructor
      · linarith
      · rw [hΔ] at hiw ⊢
        linarith
    have pabs := abs_le.1 perr
    have hsum : |A.val (ofNat i * ((hi - lo) / ofNat n)) + A.val lo| ≤
        M + (((1 + A.u) ^ 3 - 1) * Δ + ((1 + A.u) * n + 1) * A.η) := by
      have h1 := abs_le.1 hedge
      rw [abs_le]
      constructor <;> linarith
    obtain ⟨q1, q2⟩ := A.add _ lo p1 hlo (hsum.trans (by linarith))
    refine ⟨q1, ?_⟩
    have e1 : A.val (ofNat i * ((hi - lo) / ofNat n) + lo) - (A.val lo + (i : ℝ) * (Δ / n)) =
        (A.val (ofNat i * ((hi - lo) / ofNat n) + lo) - (A.val (ofNat i * ((hi - lo) / ofNat n)) + A.val lo)) +
          (A.val (ofNat i * ((hi - lo) / ofNat n)) - i * (Δ / n)) := by ring
    have e2 := abs_add_le (A.val (ofNat i * ((hi - lo) / ofNat n) + lo) - (A.val (ofNat i * ((hi - lo) / ofNat n)) + A.val lo))
      (A.val (ofNat i * ((hi - lo) / ofNat n)) - i * (Δ / n))
    have e3 := mul_le_mul_of_nonneg_left hsum hu0
    rw [e1]
    unfold edgeErr
    linarith
  have herr0 : 0 ≤ edgeErr A.u A.η Δ M n := (abs_nonneg _).trans (key 0 hn).2
  unfold NearEdges linEdgesF linEdges
  rw [List.range_succ, List.map_append]
  refine List.rel_append (R := fun a b => A.fin a ∧ |A.val a - b| ≤ edgeErr A.u A.η Δ M n) ?_ ?_
  · rw [List.forall₂_map_left_iff, List.forall₂_map_right_iff, List.forall₂_same]
    intro i hi'
    rw [hne]
    exact key i (List.mem_range.1 hi')
  · simp only [List.map_cons, List.map_nil, List.forall₂_cons, List.forall₂_nil_right_iff, and_true]
    refine ⟨hhi, ?_⟩
    rw [← hΔ, mul_div_cancel₀ _ hnR.ne', hΔ]
    simpa using herr0

omit [DecidableLT F] in
theorem nearEdges_mono {δ δ' : ℝ} (h : δ ≤ δ') {e : List F} {e' : List ℝ} (hn : NearEdges A δ e e') : NearEdges A δ' e e' :=
  hn.imp fun _ _ h' => ⟨h'.1, h'.2.trans h⟩

omit [DecidableLT F] in
/-- **C124.** Edges with distances of more than two errors stay in order. -/
theorem nearEdges_increasing {δ : ℝ} {e : List F} {e' : List ℝ} (hn : NearEdges A δ e e')
    (hw : e'.Pairwise (fun a b => a + 2 * δ < b)) : (e.map A.val).Pairwise (· < ·) := by
  induction hn with
  | nil => exact List.Pairwise.nil
  | @cons a b l l' h1 h2 ih =>
    rw [List.pairwise_cons] at hw
    rw [List.map_cons, List.pairwise_cons]
    refine ⟨fun x hx => ?_, ih hw.2⟩
    obtain ⟨a', ha', rfl⟩ := List.mem_map.1 hx
    obtain ⟨i, hi, rfl⟩ := List.getElem_of_mem ha'
    have hlen := List.Forall₂.length_eq h2
    have h3 := List.Forall₂.get h2 hi (hlen ▸ hi)
    have h4 := hw.1 l'[i] (List.getElem_mem _)
    have h5 := abs_le.1 h1.2
    have h6 := abs_le.1 h3.2
    simp only [List.get_eq_getElem] at h6
    linarith

theorem linEdges_spaced (lo hi : ℝ) (n : Nat) (h : lo ≤ hi) :
    (linEdges lo hi n).Pairwise (fun a b => a + (hi - lo) / n ≤ b) := by
  unfold linEdges
  rw [List.pairwise_map]
  refine List.pairwise_lt_range.imp fun {a b} hab => ?_
  have h1 : (a : ℝ) + 1 ≤ b := by exact_mod_cast hab
  have h2 : 0 ≤ (hi - lo) / (n : ℝ) := div_nonneg (by linarith) (Nat.cast_nonneg n)
  have := mul_le_mul_of_nonneg_right h1 h2
  linarith

omit [DecidableLT F] in
/-- **C124.** Computed edges are increasing if the bins are wider than two errors. -/
theorem linEdgesF_good {δ : ℝ} {e : List F} {lo hi : ℝ} {n : Nat} (hn : 0 < n) (h : lo ≤ hi)
    (he : NearEdges A δ e (linEdges lo hi n)) (hw : 2 * δ < (hi - lo) / n) : GoodEdges (e.map A.val) := by
  refine ⟨?_, nearEdges_increasing he ((linEdges_spaced lo hi n h).imp fun {a b} hab => by linarith)⟩
  have := List.Forall₂.length_eq he
  simp only [linEdges, List.length_map, List.length_range] at this
  rw [List.length_map]
  omega

/-! ### Bins -/

/-- **C124.** A coordinate that is not close to an edge is counted in the same bin. -/
theorem binIndexF_same {δ ε : ℝ} {e : List F} {e' : List ℝ} (he : NearEdges A δ e e') {x : F} {y : ℝ} (hx : A.fin x)
    (hxy : |A.val x - y| ≤ ε) (hc : ∀ b ∈ e', δ + ε < |y - b|) : binIndexF e x = binIndex e' y := by
  have hxy' := abs_le.1 hxy
  have hfin : ∀ a ∈ e, A.fin a := by
    intro a ha
    obtain ⟨i, hi, rfl⟩ := List.getElem_of_mem ha
    exact (List.Forall₂.get he hi (List.Forall₂.length_eq he ▸ hi)).1
  have hpair : List.Forall₂ (fun a b => (A.val a ≤ A.val x ↔ b ≤ y) ∧ A.val a ≠ A.val x ∧ b ≠ y) e e' := by
    refine List.forall₂_iff_get.2 ⟨List.Forall₂.length_eq he, fun i i1 i2 => ?_⟩
    have h2 := (List.Forall₂.get he i1 i2).2
    have h3 := hc _ (List.get_mem e' ⟨i, i2⟩)
    generalize e.get ⟨i, i1⟩ = a at h2
    generalize e'.get ⟨i, i2⟩ = b at h2 h3
    have h2' := abs_le.1 h2
    have hδ : 0 ≤ δ := (abs_nonneg _).trans h2
    have hε : 0 ≤ ε := (abs_nonneg _).trans hxy
    rcases le_or_gt b y with h4 | h4
    · rw [abs_of_nonneg (by linarith)] at h3
      exact ⟨⟨fun _ => h4, fun _ => by linarith⟩, fun h => by linarith, fun h => by linarith⟩
    · rw [abs_of_neg (by linarith)] at h3
      exact ⟨⟨fun h => by linarith, fun h => by linarith⟩, fun h => by linarith, fun h => by linarith⟩
  rw [binIndexF_val e x hfin hx]
  have hcount : searchRight (e.map A.val) (A.val x) = searchRight e' y := by
    unfold searchRight
    rw [List.countP_map]
    clear hc he hfin
    induction hpair with
    | nil => rfl
    | @cons a b l l' h1 h2 ih =>
      rw [List.countP_cons, List.countP_cons, ih]
      simp [h1.1]
  have hl1 : (e.map A.val).getLast? ≠ some (A.val x) := by
    intro h
    obtain ⟨a, ha, hv⟩ := List.mem_map.1 (List.mem_of_getLast? h)
    obtain ⟨i, hi, rfl⟩ := List.getElem_of_mem ha
    exact (List.Forall₂.get hpair hi (List.Forall₂.length_eq he ▸ hi)).2.1 hv
  have hl2 : e'.getLast? ≠ some y := by
    intro h
    obtain ⟨i, hi, hv⟩ := List.getElem_of_mem (List.mem_of_getLast? h)
    have hi' : i < e.length := by rw [List.Forall₂.length_eq he]; exact hi
    exact (List.Forall₂.get hpair hi' hi).2.2 hv
  unfold binIndex
  simp only [hcount, if_neg hl1, if_neg hl2, List.length_map, List.Forall₂.length_eq he]

/-- **C124.** A coordinate close to an edge may be counted in a neighbouring bin, but never further away. -/
theorem binIndexF_neighbour {δ ε w : ℝ} {e : List F} {e' : List ℝ} (he : NearEdges A δ e e') (hg : GoodEdges (e.map A.val))
    (hg' : GoodEdges e') (hw : e'.Pairwise (fun a b => a + w ≤ b)) (hδ : δ + ε < w) {x : F} {y : ℝ} (hx : A.fin x)
    (hxy : |A.val x - y| ≤ ε) {i j : Nat} (hi : binIndexF e x = some i) (hj : binIndex e' y = some j) : i ≤ j + 1 ∧ j ≤ i + 1 := by
  have hxy' := abs_le.1 hxy
  have hlen := List.Forall₂.length_eq he
  have hfin : ∀ a ∈ e, A.fin a := by
    intro a ha
    obtain ⟨i, hi, rfl⟩ := List.getElem_of_mem ha
    exact (List.Forall₂.get he hi (hlen ▸ hi)).1
  rw [binIndexF_val e x hfin hx, binIndex_iff _ hg] at hi
  rw [binIndex_iff _ hg'] at hj
  obtain ⟨lo, up, h1, h2, h3, h4⟩ := hi
  obtain ⟨lo', up', k1, k2, k3, k4⟩ := hj
  rw [List.getElem?_eq_some_iff] at h1 h2 k1 k2
  obtain ⟨h1', rfl⟩ := h1
  obtain ⟨h2', rfl⟩ := h2
  obtain ⟨k1', rfl⟩ := k1
  obtain ⟨k2', rfl⟩ := k2
  rw [List.length_map] at h1' h2'
  have near : ∀ (m : Nat) (hm : m < e.length) (hm' : m < e'.length), |A.val e[m] - e'[m]| ≤ δ := fun m hm hm' =>
    (List.Forall₂.get he hm hm').2
  have hle : A.val x ≤ A.val e[i + 1] := by
    rw [List.getElem_map] at h4
    rcases h4 with h | h
    · exact h.le
    · exact h.2.le
  have hle' : y ≤ e'[j + 1] := by
    rcases k4 with h | h
    · exact h.le
    · exact h.2.le
  rw [List.getElem_map] at h3
  have hp := List.pairwise_iff_getElem.1 hw
  constructor
  · by_contra hcon
    have hp' := hp (j + 1) i k2' (hlen ▸ h1') (by omega)
    have := abs_le.1 (near i h1' (hlen ▸ h1'))
    linarith
  · by_contra hcon
    have hp' := hp (i + 1) j (hlen ▸ h2') k1' (by omega)
    have := abs_le.1 (near (i + 1) h2' (hlen ▸ h2'))
    linarith

/-- **C124.** The same for points. -/
theorem binOfF_same {δ ε : ℝ} {bins : List (List F)} {exact : List (List ℝ)} (hb : List.Forall₂ (NearEdges A δ) bins exact)
    {p : List F} {q : List ℝ} (hp : NearPoint A ε p q) (hc : Clear (δ + ε) exact q) : binOfF bins p = binOf exact q := by
  induction hb generalizing p q with
  | nil =>
    cases hp with
    | nil => rfl
    | cons _ _ => rfl
  | @cons e e' es es' h1 h2 ih =>
    cases hp with
    | nil => rfl
    | @cons x y xs ys h3 h4 =>
      obtain ⟨c1, c2⟩ := hc
      simp only [binOfF, binOf]
      rw [binIndexF_same h1 h3.1 h3.2 c1, ih h4 c2]
      generalize binIndex e' y = o1
      generalize binOf es' ys = o2
      cases o1 <;> cases o2 <;> rfl

/-! ### Counts -/

open scoped Classical in
/-- Number of points close to an edge. -/
noncomputable def unclear (δ : ℝ) (exact : List (List ℝ)) (points : List (List ℝ)) : Nat :=
  points.countP (fun q => decide (¬ Clear δ exact q))

theorem countF_diff {δ ε : ℝ} {bins : List (List F)} {exact : List (List ℝ)} (hb : List.Forall₂ (NearEdges A δ) bins exact)
    {ps : List (List F)} {qs : List (List ℝ)} (hp : List.Forall₂ (NearPoint A ε) ps qs) (idx : List Nat) :
    ps.countP (fun p => decide (binOfF bins p = some idx)) ≤
        qs.countP (fun q => decide (binOf exact q = some idx)) + unclear (δ + ε) exact qs ∧
      qs.countP (fun q => decide (binOf exact q = some idx)) ≤
        ps.countP (fun p => decide (binOfF bins p = some idx)) + unclear (δ + ε) exact qs := by
  unfold unclear
  induction hp with
  | nil => simp
  | @cons p q ps qs h1 h2 ih =>
    simp only [List.countP_cons]
    by_cases hc : Clear (δ + ε) exact q
    · rw [binOfF_same hb h1 hc]
      simp only [hc, not_true_eq_false, decide_false, Bool.false_eq_true, if_false]
      constructor <;> omega
    · simp only [hc, not_false_eq_true, decide_true, if_true]
      constructor
      · have : (if decide (binOfF bins p = some idx) = true then 1 else 0) ≤ 1 := by split <;> omega
        omega
      · have : (if decide (binOf exact q = some idx) = true then 1 else 0) ≤ 1 := by split <;> omega
        omega

/-- **C124.** `Histogram.add` with computed edges and points: the counts differ at most by the number of points close to an edge. -/
theorem histogramF_add {δ ε : ℝ} {h : Histogram F} {h' : Histogram ℝ} (hb : List.Forall₂ (NearEdges A δ) h.bins h'.bins)
    {ps : List (List F)} {qs : List (List ℝ)} (hp : List.Forall₂ (NearPoint A ε) ps qs)
    (hlen : ∀ q ∈ qs, q.length = h'.bins.length) :
    ∃ g g', h.addF ps = .ok g ∧ h'.add qs = .ok g' ∧ g.bins = h.bins ∧ g'.bins = h'.bins ∧
      ∀ idx, |(g.data idx : ℤ) - g'.data idx| ≤ |(h.data idx : ℤ) - h'.data idx| + unclear (δ + ε) h'.bins qs := by
  have hbl := List.Forall₂.length_eq hb
  have hlen' : ∀ p ∈ ps, p.length = h.bins.length := by
    intro p hp'
    obtain ⟨i, hi, rfl⟩ := List.getElem_of_mem hp'
    have hi' : i < qs.length := List.Forall₂.length_eq hp ▸ hi
    have := List.Forall₂.length_eq (List.Forall₂.get hp hi hi')
    simp only [List.get_eq_getElem] at this
    rw [this, hbl, hlen _ (List.getElem_mem hi')]
  unfold Histogram.addF Histogram.add histogramddF histogramdd
  rw [if_pos (by rw [List.all_eq_true]; intro p hp; simpa using hlen' p hp),
    if_pos (by rw [List.all_eq_true]; intro p hp; simpa using hlen p hp)]
  refine ⟨_, _, rfl, rfl, rfl, rfl, fun idx => ?_⟩
  obtain ⟨h1, h2⟩ := countF_diff hb hp idx
  dsimp only
  push_cast
  generalize ps.countP _ = a at h1 h2
  generalize qs.countP _ = b at h1 h2
  generalize unclear _ _ _ = c at h1 h2
  have h3 := abs_add_le ((h.data idx : ℤ) - h'.data idx) ((a : ℤ) - b)
  have h4 : |(a : ℤ) - b| ≤ c := by
    rw [abs_le]
    omega
  have e : ((h.data idx : ℤ) + a) - (h'.data idx + b) = ((h.data idx : ℤ) - h'.data idx) + ((a : ℤ) - b) := by ring
  rw [e]
  omega

theorem unclear_zero {δ : ℝ} {exact : List (List ℝ)} {qs : List (List ℝ)} (h : ∀ q ∈ qs, Clear δ exact q) :
    unclear δ exact qs = 0 := by
  unfold unclear
  rw [List.countP_eq_zero]
  intro q hq
  simpa using h q hq

/-- **C124.** The counts are the exact ones if no point is close to an edge. -/
theorem histogramF_add_same {δ ε : ℝ} {h : Histogram F} {h' : Histogram ℝ} (hb : List.Forall₂ (NearEdges A δ) h.bins h'.bins)
    {ps : List (List F)} {qs : List (List ℝ)} (hp : List.Forall₂ (NearPoint A ε) ps qs)
    (hlen : ∀ q ∈ qs, q.length = h'.bins.length) (hc : ∀ q ∈ qs, Clear (δ + ε) h'.bins q) (hd : h.data = h'.data) :
    ∃ g g', h.addF ps = .ok g ∧ h'.add qs = .ok g' ∧ g.bins = h.bins ∧ g'.bins = h'.bins ∧ g.data = g'.data ∧
      g.counts = g'.counts := by
  obtain ⟨g, g', h1, h2, h3, h4, h5⟩ := histogramF_add hb hp hlen
  have hdata : g.data = g'.data := by
    funext idx
    have := h5 idx
    rw [hd, unclear_zero hc, sub_self, abs_zero] at this
    have h0 : |(g.data idx : ℤ) - g'.data idx| = 0 := le_antisymm this (abs_nonneg _)
    rw [abs_eq_zero, sub_eq_zero] at h0
    exact_mod_cast h0
  refine ⟨g, g', h1, h2, h3, h4, hdata, ?_⟩
  unfold Histogram.counts Histogram.shape
  rw [hdata, h3, h4]
  congr 1
  clear h1 h2 h3 h4 h5 hdata hc hlen hp hd
  generalize h.bins = b at hb
  generalize h'.bins = b' at hb
  induction hb with
  | nil => rfl
  | cons a _ ih => rw [List.map_cons, List.map_cons, ih, List.Forall₂.length_eq a]

/-! ### Creation -/

/-- What the edges of one dimension need: numbers are finite, the minimum is smaller than the maximum, and neither overflow nor
underflow destroys the width of the bins. -/
structure EdgeFits (A : Rounding F) (ofNat : Nat → F) (M : ℝ) (n : Nat) (r : F × F) : Prop where
  pos : 0 < n
  nat : ∀ i ≤ n, A.fin (ofNat i) ∧ A.val (ofNat i) = i
  lo : A.fin r.1 ∧ |A.val r.1| ≤ M
  hi : A.fin r.2 ∧ |A.val r.2| ≤ M
  lt : A.val r.1 < A.val r.2
  width : A.η < (1 - A.u) ^ 2 * (A.val r.2 - A.val r.1) / n
  fits : (1 + A.u) ^ 3 * (A.val r.2 - A.val r.1) + ((1 + A.u) * n + 1) * A.η + M ≤ A.Ω

theorem npEdgesF_near {zero half : F} {ofNat : Nat → F} (h0 : A.fin zero ∧ A.val zero = 0) (hu : A.u < 1) {M : ℝ} {n : Nat} {r : F × F}
    (h : EdgeFits A ofNat M n r) :
    ∃ e, npEdgesF zero half ofNat n r = .ok e ∧ npEdges n (A.val r.1, A.val r.2) = .ok (linEdges (A.val r.1) (A.val r.2) n) ∧
      NearEdges A (edgeErr A.u A.η (A.val r.2 - A.val r.1) M n) e (linEdges (A.val r.1) (A.val r.2) n) := by
  refine ⟨linEdgesF zero ofNat r.1 r.2 n, ?_, ?_, linEdgesF_near h0 h.pos h.nat h.lo.1 h.hi.1 h.lo.2 h.hi.2 h.lt h.width hu h.fits⟩
  · unfold npEdgesF
    rw [if_neg (by rw [A.lt r.2 r.1 h.hi.1 h.lo.1]; exact not_lt.2 h.lt.le), if_neg]
    rw [eqF_iff h.lo.1 h.hi.1]
    exact h.lt.ne
  · unfold npEdges
    rw [if_neg (not_lt.2 h.lt.le), if_neg h.lt.ne]

/-- **C124.** A new histogram: the edges are close to the exact ones, and the counts are the same unless the origin, which is counted
(C10), is close to an edge. -/
theorem histogramF_new {zero half : F} {ofNat : Nat → F} (h0 : A.fin zero ∧ A.val zero = 0) (hu : A.u < 1) {M δ : ℝ}
    {nBins : List Nat} {ranges : List (F × F)} (hlen : nBins.length = ranges.length)
    (hfit : ∀ nr ∈ nBins.zip ranges, EdgeFits A ofNat M nr.1 nr.2 ∧
      edgeErr A.u A.η (A.val nr.2.2 - A.val nr.2.1) M nr.1 ≤ δ) :
    ∃ h h', Histogram.newF zero half ofNat nBins ranges = .ok h ∧
      Histogram.new nBins (ranges.map fun r => (A.val r.1, A.val r.2)) = .ok h' ∧
      h'.bins = (nBins.zip ranges).map (fun nr => linEdges (A.val nr.2.1) (A.val nr.2.2) nr.1) ∧
      List.Forall₂ (NearEdges A δ) h.bins h'.bins ∧
      (Clear δ h'.bins (List.replicate nBins.length 0) → h.data = h'.data) := by
  have hedges : ∃ bins, (nBins.zip ranges).mapM (fun nr => npEdgesF zero half ofNat nr.1 nr.2) = .ok bins ∧
      (nBins.zip (ranges.map fun r => (A.val r.1, A.val r.2))).mapM (fun nr => npEdges nr.1 nr.2) =
        .ok ((nBins.zip ranges).map (fun nr => linEdges (A.val nr.2.1) (A.val nr.2.2) nr.1)) ∧
      List.Forall₂ (NearEdges A δ) bins ((nBins.zip ranges).map (fun nr => linEdges (A.val nr.2.1) (A.val nr.2.2) nr.1)) := by
    clear hlen
    induction nBins generalizing ranges with
    | nil => exact ⟨[], rfl, rfl, List.Forall₂.nil⟩
    | cons n ns ih =>
      cases ranges with
      | nil => exact ⟨[], rfl, rfl, List.Forall₂.nil⟩
      | cons r rs =>
        obtain ⟨f1, f2⟩ := hfit (n, r) (by simp)
        obtain ⟨e, e1, e2, e3⟩ := npEdgesF_near (half := half) h0 hu f1
        obtain ⟨bs, b1, b2, b3⟩ := ih (ranges := rs) (fun nr hnr => hfit nr (by simp [hnr]))
        refine ⟨e :: bs, ?_, ?_, ?_⟩
        · rw [List.zip_cons_cons, List.mapM_cons, e1, ok_bind, b1]
          rfl
        · rw [List.map_cons, List.zip_cons_cons, List.mapM_cons, e2, ok_bind, b2]
          rfl
        · rw [List.zip_cons_cons, List.map_cons]
          exact List.Forall₂.cons (nearEdges_mono f2 e3) b3
  obtain ⟨bins, b1, b2, b3⟩ := hedges
  have hpos : (nBins.zip ranges).any (fun nr => nr.1 == 0) = false := by
    rw [List.any_eq_false]
    intro nr hnr
    have := (hfit nr hnr).1.pos
    simp only [beq_iff_eq]
    omega
  have hpos' : (nBins.zip (ranges.map fun r => (A.val r.1, A.val r.2))).any (fun nr => nr.1 == 0) = false := by
    rw [List.any_eq_false] at hpos ⊢
    intro nr hnr
    rw [List.zip_map_right, List.mem_map] at hnr
    obtain ⟨a, ha, rfl⟩ := hnr
    exact hpos a ha
  have hbl : bins.length = nBins.length := by
    have := List.Forall₂.length_eq b3
    rw [this, List.length_map, List.length_zip, hlen, Nat.min_self]
  refine ⟨⟨bins, fun idx => [List.replicate nBins.length zero].countP (fun p => decide (binOfF bins p = some idx))⟩,
    ⟨(nBins.zip ranges).map (fun nr => linEdges (A.val nr.2.1) (A.val nr.2.2) nr.1), fun idx =>
      [List.replicate nBins.length (0 : ℝ)].countP (fun p => decide (binOf ((nBins.zip ranges).map (fun nr =>
        linEdges (A.val nr.2.1) (A.val nr.2.2) nr.1)) p = some idx))⟩, ?_, ?_, rfl, b3, ?_⟩
  · unfold Histogram.newF
    rw [if_neg (by omega), hpos, if_neg (by simp), if_neg (by omega)]
    simp only [pure_eq_ok, ok_bind, b1]
    unfold histogramddF
    rw [if_pos (by simp [hbl])]
    rfl
  · unfold Histogram.new
    rw [List.length_map, if_neg (by omega), hpos', if_neg (by simp), if_neg (by omega)]
    simp only [pure_eq_ok, ok_bind, b2]
    unfold histogramdd
    rw [if_pos (by simp [hlen])]
    rfl
  · intro hc
    dsimp only at hc
    funext idx
    dsimp only
    have hz : NearPoint A 0 (List.replicate nBins.length zero) (List.replicate nBins.length (0 : ℝ)) := by
      refine List.forall₂_iff_get.2 ⟨by simp, fun i i1 i2 => ?_⟩
      simp [h0.1, h0.2]
    rw [List.countP_singleton, List.countP_singleton, binOfF_same (ε := 0) b3 hz (by rwa [add_zero])]

/-! ### Series of updates -/

/-- **C124.** A histogram made from `batches` of positions (one `add` each): the counts are the exact ones if no position is close to
an edge. -/
theorem histogramF_series_same {δ ε : ℝ} {h : Histogram F} {h' : Histogram ℝ} (hb : List.Forall₂ (NearEdges A δ) h.bins h'.bins)
    (hd : h.data = h'.data) {batches : List (List (List F))} {exact : List (List (List ℝ))}
    (hp : List.Forall₂ (List.Forall₂ (NearPoint A ε)) batches exact)
    (hq : ∀ qs ∈ exact, ∀ q ∈ qs, q.length = h'.bins.length ∧ Clear (δ + ε) h'.bins q) :
    ∃ g g', batches.foldlM (fun h ps => h.addF ps) h = .ok g ∧ exact.foldlM (fun h qs => h.add qs) h' = .ok g' ∧
      g.bins = h.bins ∧ g'.bins = h'.bins ∧ g.data = g'.data := by
  induction hp generalizing h h' with
  | nil => exact ⟨h, h', rfl, rfl, rfl, rfl, hd⟩
  | cons h1 h2 ih =>
    obtain ⟨g, g', a1, a2, a3, a4, a5, _⟩ := histogramF_add_same hb h1 (fun q hq' => (hq _ (by simp) q hq').1)
      (fun q hq' => (hq _ (by simp) q hq').2) hd
    obtain ⟨k, k', b1, b2, b3, b4, b5⟩ := ih (h := g) (h' := g') (by rwa [a3, a4]) a5
      (fun qs hqs q hq' => by rw [a4]; exact hq qs (by simp [hqs]) q hq')
    exact ⟨k, k', by rw [List.foldlM_cons, a1, ok_bind, b1], by rw [List.foldlM_cons, a2, ok_bind, b2], b3.trans a3, b4.trans a4, b5⟩

omit [DecidableLT F] in
theorem histogramF_counts {δ : ℝ} {h : Histogram F} {h' : Histogram ℝ} (hb : List.Forall₂ (NearEdges A δ) h.bins h'.bins)
    (hd : h.data = h'.data) : h.counts = h'.counts := by
  unfold Histogram.counts Histogram.shape
  rw [hd]
  congr 1
  generalize h.bins = b at hb
  generalize h'.bins = b' at hb
  induction hb with
  | nil => rfl
  | cons a _ ih => rw [List.map_cons, List.map_cons, ih, List.Forall₂.length_eq a]

/-- **C124.** The free energy of computed positions. If no exact position is close to an edge, then the free energy computed from the
histogram of the computed positions has only the errors of C116: those of the formula, none of the positions. -/
theorem fes_of_positions {f : FloatFns F} (hf : FesContract A f) {δ ε : ℝ} {h : Histogram F} {h' : Histogram ℝ}
    (hb : List.Forall₂ (NearEdges A δ) h.bins h'.bins) (hd : h.data = h'.data)
    {batches : List (List (List F))} {exact : List (List (List ℝ))}
    (hp : List.Forall₂ (List.Forall₂ (NearPoint A ε)) batches exact)
    (hq : ∀ qs ∈ exact, ∀ q ∈ qs, q.length = h'.bins.length ∧ Clear (δ + ε) h'.bins q)
    {kt : F} (hk : A.fin kt) (hk0 : 0 < A.val kt) {L : ℝ} (hΩ : (fesBnd hf (A.val kt) L).FesFits A.Ω)
    (hfit : ∀ g', exact.foldlM (fun h qs => h.add qs) h' = .ok g' →
      g'.counts.flat ≠ [] ∧ ∀ n ∈ g'.counts.flat, n ≤ hf.N ∧ (n ≠ 0 → Real.log n ≤ L)) :
    ∃ (g : Histogram F) (g' : Histogram ℝ) (fe : Nat → WithTop F), batches.foldlM (fun h ps => h.addF ps) h = .ok g ∧
      exact.foldlM (fun h qs => h.add qs) h' = .ok g' ∧
      calculateFesF f g.counts kt true = .ok (g'.counts.map fe) ∧
      calculateFes g'.counts (A.val kt) true = .ok (g'.counts.map (freeEnergy (A.val kt) (maxCount g'.counts.flat))) ∧
      ∀ n ∈ g'.counts.flat, NearTop A (fesBnd hf (A.val kt) L).fes (fe n) (freeEnergy (A.val kt) (maxCount g'.counts.flat) n) := by
  obtain ⟨g, g', a1, a2, a3, a4, a5⟩ := histogramF_series_same hb hd hp hq
  have hc : g.counts = g'.counts := histogramF_counts (by rwa [a3, a4]) a5
  obtain ⟨f1, f2⟩ := hfit g' a2
  obtain ⟨fe, b1, b2, b3, _⟩ := fes_rounding hf hk hk0 g'.counts f1 (fun n hn => (f2 n hn).1) (fun n hn => (f2 n hn).2) hΩ
  exact ⟨g, g', fe, a1, a2, by rw [hc]; exact b1, b2, b3⟩

end

/-! ### Examples: numbers with 53 bits -/

theorem fits53 : EdgeFits (rounding53 1e300) nat53 2.5 100 (⟨-2.5⟩, ⟨2.5⟩) where
  pos := by norm_num
  nat := fun i _ => ⟨trivial, rfl⟩
  lo := ⟨trivial, by norm_num [rounding53]⟩
  hi := ⟨trivial, by norm_num [rounding53]⟩
  lt := by norm_num [rounding53]
  width := by norm_num [rounding53]
  fits := by norm_num [rounding53]

theorem edgeErr53 : edgeErr (rounding53 1e300).u (rounding53 1e300).η (2.5 - -2.5) 2.5 100 ≤ 2e-15 := by
  norm_num [rounding53, edgeErr]

/-- The histogram of the double well of C123 after at most 20 steps, in 100 bins between -2.5 and 2.5: it is the exact one if the exact
positions are more than 1.1e-10 away from all edges. (The origin is an edge here; both histograms are cleared before use.) -/
theorem well_histogram {R : Type} (normal : NormalOps R Num53 1) (hn : ∀ r k, |((normal r).1 k).val| ≤ 10) (r : R) (xs : List ℝ)
    (hx : ∀ x ∈ xs, |x| ≤ 2.5) (n : Nat) (hn' : n ≤ 20) :
    ∃ t t' h h', LdState.iter .overdamped wellCfg normal n (wellStart r xs) = .ok t ∧
      LdState.iter .overdamped (overdampedCfg wellPot 0.005) (valNormal (rounding53 1e300) normal) n (wellStartExact r xs) = .ok t' ∧
      Histogram.newF ⟨0⟩ ⟨1 / 2⟩ nat53 [100] [((⟨-2.5⟩ : Num53), ⟨2.5⟩)] = .ok h ∧ Histogram.new [100] [((-2.5 : ℝ), 2.5)] = .ok h' ∧
      ((∀ q ∈ t'.particles, ∀ i : Nat, i ≤ 100 → 1.1e-10 < |q.pos 0 - (-2.5 + i * 0.05)|) →
        ∃ g g', h.clear.addF (t.particles.map fun p => [p.pos 0]) = .ok g ∧
          h'.clear.add (t'.particles.map fun q => [q.pos 0]) = .ok g' ∧ g.counts = g'.counts) := by
  obtain ⟨t, t', h1, h2, h3, h4, h5⟩ := well_rounding normal hn r xs hx n hn'
  obtain ⟨h, h', k1, k2, k3, k4, _⟩ := histogramF_new (A := rounding53 1e300) (zero := ⟨0⟩) (half := ⟨1 / 2⟩) (ofNat := nat53)
    ⟨trivial, rfl⟩ (by norm_num [rounding53]) (M := 2.5) (δ := 2e-15) (nBins := [100]) (ranges := [(⟨-2.5⟩, ⟨2.5⟩)]) rfl (by
      intro nr hnr
      simp only [List.zip_cons_cons, List.zip_nil_right, List.mem_singleton] at hnr
      subst hnr
      exact ⟨fits53, edgeErr53⟩)
  refine ⟨t, t', h, h', h1, h2, k1, k2, fun hc => ?_⟩
  obtain ⟨g, g', a1, a2, a3, a4, a5, a6⟩ := histogramF_add_same (A := rounding53 1e300) (δ := 2e-15) (ε := 1e-10)
    (h := h.clear) (h' := h'.clear) k4 (ps := t.particles.map fun p => [p.pos 0]) (qs := t'.particles.map fun q => [q.pos 0])
    (by
      refine List.forall₂_iff_get.2 ⟨by simp [h3, h4], fun i i1 i2 => ?_⟩
      simp only [List.get_eq_getElem, List.getElem_map]
      simp only [List.length_map] at i1 i2
      exact List.Forall₂.cons ⟨trivial, h5 i _ _ (List.getElem?_eq_getElem i1) (List.getElem?_eq_getElem i2)⟩ List.Forall₂.nil)
    (by
      intro q hq
      obtain ⟨p, _, rfl⟩ := List.mem_map.1 hq
      change _ = h'.bins.length
      rw [k3]
      rfl)
    (by
      intro q hq
      obtain ⟨p, hp, rfl⟩ := List.mem_map.1 hq
      change Clear _ h'.bins _
      rw [k3]
      refine ⟨?_, trivial⟩
      intro b hb
      simp only [linEdges, List.mem_map, List.mem_range] at hb
      obtain ⟨i, hi, rfl⟩ := hb
      have := hc p hp i (by omega)
      have e : (rounding53 1e300).val ⟨-2.5⟩ + (i : ℝ) * (((rounding53 1e300).val ⟨2.5⟩ - (rounding53 1e300).val ⟨-2.5⟩) / ((100 : Nat) : ℝ)) =
          -2.5 + i * 0.05 := by
        norm_num [rounding53]
      rw [e]
      refine lt_of_le_of_lt ?_ this
      norm_num)
    rfl
  exact ⟨g, g', a1, a2, a6⟩

/-- A position of 0.02 is clear of these edges. -/
example (i : Nat) : 1.1e-10 < |(0.02 : ℝ) - (-2.5 + i * 0.05)| := by
  rcases Nat.lt_or_ge i 51 with h | h
  · have : (i : ℝ) ≤ 50 := by exact_mod_cast Nat.lt_succ_iff.1 h
    rw [abs_of_nonneg (by linarith)]
    linarith
  · have : (51 : ℝ) ≤ i := by exact_mod_cast h
    rw [abs_of_nonpos (by linarith)]
    linarith

/-- The condition is necessary: an exact position of 1 on an edge, computed as 1 - 2⁻⁵³, is counted in another bin. -/
example : binIndexF [(⟨0⟩ : Num53), ⟨1⟩, ⟨2⟩] ⟨1 - 2⁻¹ ^ 53⟩ = some 0 ∧ binIndex [(0 : ℝ), 1, 2] 1 = some 1 := by
  constructor
  · rw [binIndexF_val (A := rounding53 1e300) _ _ (fun _ _ => trivial) trivial]
    norm_num [rounding53, binIndex, searchRight, List.countP_cons]
  · norm_num [binIndex, searchRight, List.countP_cons]

/-! ### Without rounding -/

theorem eqF_real (a b : ℝ) : eqF a b = decide (a = b) := by
  unfold eqF
  rcases lt_trichotomy a b with h | h | h
  · simp [h, h.ne]
  · simp [h]
  · simp [h, h.ne']

theorem binIndexF_real (edges : List ℝ) (x : ℝ) : binIndexF edges x = binIndex edges x := by
  unfold binIndexF binIndex searchRightF searchRight
  have e : (fun e : ℝ => !decide (x < e)) = fun e => decide (e ≤ x) := by
    funext e
    rw [← decide_not]
    simp only [not_lt]
  rw [e]
  cases edges.getLast? with
  | none => simp
  | some l => simp [eqF_real]

theorem binOfF_real : ∀ (bins : List (List ℝ)) (p : List ℝ), binOfF bins p = binOf bins p
  | [], [] => rfl
  | [], _ :: _ => rfl
  | _ :: _, [] => rfl
  | e :: es, x :: xs => by
    simp only [binOfF, binOf]
    rw [binIndexF_real, binOfF_real es xs]
    generalize binIndex e x = o1
    generalize binOf es xs = o2
    cases o1 <;> cases o2 <;> rfl

theorem linEdgesF_real (lo hi : ℝ) {n : Nat} (hn : 0 < n) : linEdgesF 0 (fun n => (n : ℝ)) lo hi n = linEdges lo hi n := by
  have hn' : (n : ℝ) ≠ 0 := by exact_mod_cast hn.ne'
  unfold linEdgesF linEdges
  rw [List.range_succ, List.map_append, List.map_singleton]
  dsimp only
  congr 1
  · refine List.map_congr_left fun i _ => ?_
    split
    · field_simp
      ring
    · ring
  · congr 1
    field_simp
    ring

/-- Without rounding the model is the one with exact numbers. -/
theorem histogramF_exact (h : Histogram ℝ) (points : List (List ℝ)) (nBins : List Nat) (ranges : List (ℝ × ℝ)) :
    h.addF points = h.add points ∧ Histogram.newF 0 (1 / 2) (fun n => (n : ℝ)) nBins ranges = Histogram.new nBins ranges := by
  have hdd : ∀ (bins : List (List ℝ)) pts, histogramddF bins pts = histogramdd bins pts := by
    intro bins pts
    unfold histogramddF histogramdd
    simp only [binOfF_real]
  refine ⟨by unfold Histogram.addF Histogram.add; rw [hdd], ?_⟩
  unfold Histogram.newF Histogram.new
  by_cases hz : (nBins.zip ranges).any (fun nr => nr.1 == 0) = true
  · rw [if_pos hz, if_pos hz]
    split <;> rfl
  · have : (nBins.zip ranges).mapM (fun nr => npEdgesF (0 : ℝ) (1 / 2) (fun n => (n : ℝ)) nr.1 nr.2) =
        (nBins.zip ranges).mapM (fun nr => npEdges nr.1 nr.2) := by
      have hne : ∀ nr ∈ nBins.zip ranges, 0 < nr.1 := by
        intro nr hnr
        rw [Bool.not_eq_true, List.any_eq_false] at hz
        have := hz nr hnr
        simp only [beq_iff_eq] at this
        omega
      generalize nBins.zip ranges = l at hne
      induction l with
      | nil => rfl
      | cons a l ih =>
        rw [List.mapM_cons, List.mapM_cons, ih fun nr h => hne nr (List.mem_cons_of_mem _ h)]
        congr 1
        unfold npEdgesF npEdges
        rw [eqF_real, linEdgesF_real _ _ (hne a (by simp)), linEdgesF_real _ _ (hne a (by simp))]
        simp only [decide_eq_true_eq]
    rw [this]
    simp only [hdd]

end Bdld
