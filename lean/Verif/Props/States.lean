import Verif.Model.Fes
import Verif.Spec.Fes
import Verif.Props.Grid
import Verif.Props.InputSections
import Mathlib.Data.List.Forall2
import Mathlib.Tactic.Linarith
import Mathlib.Algebra.Order.BigOperators.Group.List

/-
States: membership of positions, numbers of particles, masks for the free energy differences (C65, C66).
Order-only (law-free except for the comparison).
-/

namespace Bdld

set_option linter.unusedSectionVars false

section
variable {F : Type} [LE F] [DecidableLE F]

/-- The comparison of coordinate `i` of one position. -/
def coordIn (p : List F) (s : List (F × F)) (i : Nat) : Bool :=
  match p[i]?, s[i]? with
  | some x, some r => decide (r.1 ≤ x) && decide (x ≤ r.2)
  | _, _ => false

/-- Comparisons of the coordinates `i`, …, `i + fuel - 1`. -/
def coordsIn (p : List F) (s : List (F × F)) : Nat → Nat → Bool
  | 0, _ => true
  | fuel + 1, i => coordIn p s i && coordsIn p s fuel (i + 1)

theorem insideLoop_ok (pos : List (List F)) (s : List (F × F)) (n : Nat) (hs : n ≤ s.length) :
    ∀ (fuel i : Nat) (inside : List Bool), i + fuel = n → inside.length = pos.length →
      insideLoop pos s n fuel i inside =
        .ok (List.zipWith (fun b p => b && coordsIn p s fuel i) inside pos) := by
  intro fuel
  induction fuel with
  | zero =>
    intro i inside _ hl
    simp only [insideLoop, coordsIn, Bool.and_true, Except.ok.injEq]
    induction inside generalizing pos with
    | nil => simp
    | cons b inside ih =>
      cases pos with
      | nil => simp at hl
      | cons p pos =>
        rw [List.zipWith_cons_cons, ← ih pos (by simpa using hl)]
  | succ fuel ih =>
    intro i inside hi hl
    have hlt : i < s.length := by omega
    rw [insideLoop, if_pos (by omega)]
    simp only [List.getElem?_eq_getElem hlt]
    rw [ih (i + 1) _ (by omega) (by simp [hl])]
    congr 1
    clear ih hi
    induction inside generalizing pos with
    | nil => simp
    | cons b inside ihi =>
      cases pos with
      | nil => simp at hl
      | cons p pos =>
        simp only [List.map_cons, List.zipWith_cons_cons]
        rw [ihi pos (by simpa using hl)]
        congr 1
        rw [Bool.and_assoc, coordsIn, coordIn, List.getElem?_eq_getElem hlt]
        cases p[i]? <;> rfl

theorem insideLoop_error (pos : List (List F)) (s : List (F × F)) (n : Nat) (hs : s.length < n) :
    ∀ (fuel i : Nat) (inside : List Bool), i + fuel = n → i ≤ s.length →
      insideLoop pos s n fuel i inside = .error .indexError := by
  intro fuel
  induction fuel with
  | zero => intro i inside hi hl; omega
  | succ fuel ih =>
    intro i inside hi hl
    rw [insideLoop, if_pos (by omega)]
    by_cases h : i < s.length
    · simp only [List.getElem?_eq_getElem h]
      exact ih (i + 1) _ (by omega) (by omega)
    · simp [List.getElem?_eq_none (Nat.not_lt.1 h)]

theorem coordsIn_spec (p : List F) (s : List (F × F)) : ∀ (fuel i : Nat), p.length = i + fuel →
    i + fuel ≤ s.length → (coordsIn p s fuel i = true ↔ Spec.InState (p.drop i) ((s.drop i).take fuel)) := by
  intro fuel
  induction fuel with
  | zero =>
    intro i hp hs
    rw [List.drop_of_length_le (by omega)]
    simp [coordsIn, Spec.InState]
  | succ fuel ih =>
    intro i hp hs
    have h1 : i < p.length := by omega
    have h2 : i < s.length := by omega
    rw [List.drop_eq_getElem_cons h1, List.drop_eq_getElem_cons h2, List.take_succ_cons, coordsIn]
    unfold Spec.InState at ih ⊢
    rw [List.forall₂_cons, ← ih (i + 1) (by omega) (by omega), coordIn, List.getElem?_eq_getElem h1,
      List.getElem?_eq_getElem h2]
    simp

theorem zipWith_replicate_true (pos : List (List F)) (f : List F → Bool) :
    List.zipWith (fun b p => b && f p) (List.replicate pos.length true) pos = pos.map f := by
  induction pos with
  | nil => rfl
  | cons p pos ih => simp [List.replicate_succ, ih]

/-- **C66.** `pos_inside_ranges` marks exactly the positions of which every coordinate lies in the closed
interval of the state. Additional dimensions of a state are ignored. -/
theorem posInside_spec (n : Nat) (pos : List (List F)) (ranges : List (List (F × F)))
    (hp : ∀ p ∈ pos, p.length = n) (hr : ∀ s ∈ ranges, n ≤ s.length) :
    posInsideRanges n pos ranges =
      .ok (ranges.map (fun s => pos.map (fun p => decide (Spec.InState p (s.take n))))) := by
  unfold posInsideRanges
  refine mapM_ok _ _ _ (fun s hs => ?_)
  rw [insideLoop_ok pos s n (hr s hs) n 0 _ (by omega) (by simp), zipWith_replicate_true]
  congr 1
  refine List.map_congr_left (fun p hp' => ?_)
  have := coordsIn_spec p s n 0 (by rw [hp p hp']; omega) (by have := hr s hs; omega)
  simp only [List.drop_zero] at this
  rw [Bool.eq_iff_iff, this, decide_eq_true_iff]

theorem mapM_error {α β : Type} (f : α → Except PyErr β) (e : PyErr) (l : List α)
    (h1 : ∀ a ∈ l, (∃ b, f a = .ok b) ∨ f a = .error e) (h2 : ∃ a ∈ l, f a = .error e) :
    l.mapM f = .error e := by
  induction l with
  | nil => obtain ⟨a, ha, _⟩ := h2; simp at ha
  | cons a l ih =>
    rw [List.mapM_cons]
    rcases h1 a List.mem_cons_self with ⟨b, hb⟩ | he
    · rw [hb, ok_bind, ih (fun a ha => h1 a (List.mem_cons_of_mem _ ha))]
      · rfl
      · obtain ⟨c, hc, hce⟩ := h2
        rcases List.mem_cons.1 hc with rfl | hc
        · rw [hb] at hce; cases hce
        · exact ⟨c, hc, hce⟩
    · rw [he]; rfl

/-- C66: a state with fewer dimensions than the positions raises `IndexError`. -/
theorem posInside_error (n : Nat) (pos : List (List F)) (ranges : List (List (F × F)))
    (hr : ∃ s ∈ ranges, s.length < n) : posInsideRanges n pos ranges = .error .indexError := by
  unfold posInsideRanges
  refine mapM_error _ _ _ (fun s _ => ?_) ?_
  · rcases Nat.lt_or_ge s.length n with h | h
    · exact Or.inr (insideLoop_error pos s n h n 0 _ (by omega) (by omega))
    · exact Or.inl ⟨_, insideLoop_ok pos s n h n 0 _ (by omega) (by simp)⟩
  · obtain ⟨s, hs, h⟩ := hr
    exact ⟨s, hs, insideLoop_error pos s n h n 0 _ (by omega) (by omega)⟩

/-- **C66.** `count_particles` returns for every state the number of particles in it. -/
theorem countParticles_spec (n : Nat) (pos : List (List F)) (states : List (List (F × F)))
    (hne : pos ≠ []) (hp : ∀ p ∈ pos, p.length = n) (hs : ∀ s ∈ states, s.length = n) :
    countParticles n pos states =
      .ok (states.map (fun s => pos.countP (fun p => decide (Spec.InState p s)))) := by
  unfold countParticles
  rw [if_neg hne, posInside_spec n pos states hp (fun s h => Nat.le_of_eq (hs s h).symm)]
  simp only [ok_bind, pure_eq_ok, List.map_map, Except.ok.injEq]
  refine List.map_congr_left (fun s hs' => ?_)
  simp only [Function.comp]
  rw [List.count, List.countP_map, ← hs s hs', List.take_length]
  congr 1
  funext p
  simp

theorem sum_countP_le {α : Type} (qs : List (α → Bool))
    (hd : qs.Pairwise (fun q r => ∀ a, ¬ (q a = true ∧ r a = true))) (l : List α) :
    (qs.map (fun q => l.countP q)).sum ≤ l.length := by
  induction l with
  | nil => simp
  | cons a l ih =>
    have h1 : (qs.map (fun q => (a :: l).countP q)).sum =
        (qs.map (fun q => l.countP q)).sum + (qs.map (fun q => if q a then 1 else 0)).sum := by
      clear ih hd
      induction qs with
      | nil => rfl
      | cons q qs ih =>
        rw [List.map_cons, List.sum_cons, ih, List.countP_cons, List.map_cons, List.sum_cons, List.map_cons,
          List.sum_cons]
        omega
    have h2 : (qs.map (fun q => if q a then 1 else 0)).sum ≤ 1 := by
      clear ih h1
      induction qs with
      | nil => simp
      | cons q qs ih =>
        obtain ⟨h3, h4⟩ := List.pairwise_cons.1 hd
        rw [List.map_cons, List.sum_cons]
        by_cases hq : q a = true
        · have : (qs.map (fun q => if q a then 1 else 0)).sum = 0 := by
            apply List.sum_eq_zero
            intro x hx
            obtain ⟨r, hr, rfl⟩ := List.mem_map.1 hx
            have := h3 r hr a
            simp only [hq, true_and, Bool.not_eq_true] at this
            simp [this]
          rw [this, if_pos hq]
        · rw [if_neg hq]; have := ih h4; omega
    rw [h1, List.length_cons]
    omega

/-- **C66.** For pairwise disjoint states the counts sum to at most the number of particles. -/
theorem countParticles_le (n : Nat) (pos : List (List F)) (states : List (List (F × F)))
    (hne : pos ≠ []) (hp : ∀ p ∈ pos, p.length = n) (hs : ∀ s ∈ states, s.length = n)
    (hd : states.Pairwise Spec.Disjoint) :
    ∃ counts, countParticles n pos states = .ok counts ∧ counts.length = states.length ∧
      counts.sum ≤ pos.length := by
  refine ⟨_, countParticles_spec n pos states hne hp hs, by simp, ?_⟩
  have := sum_countP_le (states.map (fun s p => decide (Spec.InState p s)))
    (by
      rw [List.pairwise_map]
      refine hd.imp (fun h p hh => h p ?_)
      simpa using hh) pos
  rwa [List.map_map] at this

/-- C66: without particles counting raises `TypeError` (for at least one state). -/
theorem countParticles_none (n : Nat) (states : List (List (F × F))) (h : states ≠ []) :
    countParticles n [] states = .error .typeError := by
  simp [countParticles, h]

/-- Example: two states in two dimensions, one position on the border of the first, one in the second, one
in neither; the states are disjoint. -/
example : countParticles 2 [[0, 1], [3, 2], [7, 2], [2, 2]] [[((0 : Int), 2), (1, 2)], [(3, 4), (1, 2)]] =
    .ok [2, 1] := by decide

/-! ### C65: masks for free energy differences -/

section
variable [Inhabited F] [Add F] [Div F] [OfNat F 2]

theorem points_1d (a : List F) : pointsOfAxes [a] = .ok (a.map (fun x => [x])) := by
  rw [points_rowMajor_partial [a] (Or.inl rfl)]
  simp [Spec.rowMajor, List.map_eq_flatMap]

/-- **C65, one dimension.** The masks are those of the bin centres, and the set-up succeeds. -/
theorem setupDeltaF_1d_partial (edges : List F) (data : List Nat → Nat) (states : List (List (F × F)))
    (h2 : 2 ≤ states.length) (hs : ∀ s ∈ states, s.length = 1) :
    setupDeltaF ⟨[edges], data⟩ states = .ok (states.map (fun s =>
      (binCenters edges).map (fun x => decide (Spec.InState [x] s)))) := by
  have hax : (⟨[edges], data⟩ : Histogram F).axes = [binCenters edges] := rfl
  have hsh : (⟨[edges], data⟩ : Histogram F).shape = [edges.length - 1] := rfl
  unfold setupDeltaF
  rw [if_neg (by omega), hax, hsh, points_1d]
  have h3 : posInsideRanges 1 ((binCenters edges).map (fun x => [x])) states =
      .ok (states.map (fun s => (binCenters edges).map (fun x => decide (Spec.InState [x] s)))) := by
    rw [posInside_spec 1 _ states (by simp) (fun s h => Nat.le_of_eq (hs s h).symm)]
    congr 1
    refine List.map_congr_left (fun s h => ?_)
    rw [List.map_map]
    have : s.take 1 = s := by rw [← hs s h, List.take_length]
    simp only [this, Function.comp_def]
  simp only [ok_bind, List.length_cons, List.length_nil, Nat.zero_add, h3, checkMaskShapes]
  rw [if_neg]
  · rfl
  · rw [Bool.not_eq_true, List.any_eq_false]
    intro m hm
    obtain ⟨s, _, rfl⟩ := List.mem_map.1 hm
    simp [binCenters]

theorem mapM_length {α β : Type} (f : α → Except PyErr β) (l : List α) (r : List β)
    (h : l.mapM f = .ok r) : r.length = l.length := by
  induction l generalizing r with
  | nil => cases h; rfl
  | cons a l ih =>
    rw [List.mapM_cons] at h
    obtain ⟨b, hb, h⟩ := bind_ok h
    obtain ⟨bs, hbs, h⟩ := bind_ok h
    cases h
    simp [ih bs hbs]

/-- **C65, negation.** With two or more dimensions the set-up fails for every histogram and all
states. -/
theorem setupDeltaF_nd_fails (h : Histogram F) (states : List (List (F × F))) (hd : 2 ≤ h.bins.length) :
    ¬ ∃ masks, setupDeltaF h states = .ok masks := by
  rintro ⟨masks, hm⟩
  unfold setupDeltaF at hm
  by_cases h2 : states.length < 2
  · rw [if_pos h2] at hm; cases hm
  · rw [if_neg h2] at hm
    obtain ⟨points, _, hm⟩ := bind_ok hm
    obtain ⟨ms, h4, hm⟩ := bind_ok hm
    obtain ⟨u, h5, _⟩ := bind_ok hm
    have hl := mapM_length _ _ _ h4
    unfold checkMaskShapes at h5
    split at h5
    · cases h5
    · rename_i h6
      cases ms with
      | nil => rw [List.length_nil] at hl; omega
      | cons m ms =>
        apply h6
        rw [List.any_cons, Bool.or_eq_true]
        left
        rw [decide_eq_true_iff]
        intro h7
        have := congrArg List.length h7
        simp only [Histogram.shape, List.length_map, List.length_cons, List.length_nil] at this
        omega

/-- C65, negation: the error is a `ValueError` if the states have the right number of dimensions. -/
theorem setupDeltaF_nd_error (h : Histogram F) (states : List (List (F × F))) (hd : 2 ≤ h.bins.length)
    (hs : ∀ s ∈ states, s.length = h.bins.length) : setupDeltaF h states = .error .valueError := by
  have hne : h.axes ≠ [] := by
    intro h0
    have := congrArg List.length h0
    simp only [Histogram.axes, List.length_map, List.length_nil] at this
    omega
  have hax : h.axes.length = h.bins.length := by simp [Histogram.axes]
  by_cases h2 : states.length < 2
  · unfold setupDeltaF; rw [if_pos h2]; rfl
  · cases hr : setupDeltaF h states with
    | ok m => exact absurd ⟨m, hr⟩ (setupDeltaF_nd_fails h states hd)
    | error e =>
      unfold setupDeltaF at hr
      rw [if_neg h2] at hr
      obtain ⟨p, hp, hperm⟩ := points_perm_partial h.axes hne
      rw [hp] at hr
      simp only [ok_bind] at hr
      cases hq : posInsideRanges h.axes.length p states with
      | error e' =>
        exfalso
        unfold posInsideRanges at hq
        have h3 : ∀ s ∈ states, insideLoop p s h.axes.length h.axes.length 0 (List.replicate p.length true) =
            .ok (List.zipWith (fun b q => b && coordsIn q s h.axes.length 0) (List.replicate p.length true) p) :=
          fun s hs' => insideLoop_ok p s _ (by rw [hs s hs', hax]) _ 0 _ (by omega) (by simp)
        rw [mapM_ok _ _ _ h3] at hq
        cases hq
      | ok ms =>
        rw [hq] at hr
        simp only [ok_bind] at hr
        unfold checkMaskShapes at hr
        split at hr
        · cases hr; rfl
        · cases hr

end

/-- C65: a concrete two-dimensional histogram with two rectangular states. -/
example : setupDeltaF (⟨[[0, 2, 4], [0, 2]], fun _ => 1⟩ : Histogram Int)
    [[(0, 2), (0, 2)], [(2, 4), (0, 2)]] = .error .valueError := by decide

/-- C65: the same in one dimension works. -/
example : setupDeltaF (⟨[[0, 2, 4]], fun _ => 1⟩ : Histogram Int) [[(0, 2)], [(2, 4)]] =
    .ok [[true, false], [false, true]] := by decide

end

end Bdld
