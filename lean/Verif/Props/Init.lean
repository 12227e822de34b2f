import Verif.Model.Init
import Verif.Lemmas.Except
import Verif.Props.InputSections
import Mathlib.Algebra.Order.Floor.Ring
import Mathlib.Algebra.Order.Floor.Semiring
import Mathlib.Algebra.Order.Field.Basic
import Mathlib.Algebra.Order.BigOperators.Group.List
import Mathlib.Data.List.Basic
import Mathlib.Tactic.Linarith
import Mathlib.Tactic.Ring
import Mathlib.Tactic.FieldSimp
import Mathlib.Tactic.Positivity
import Mathlib.Data.Rat.Floor

/-
The initial distribution of the particles (C61, C62).
-/

namespace Bdld

set_option linter.unusedSectionVars false

section
variable {F : Type} {d : Nat} {R S : Type} [Zero F]

/-- The coordinates of a list as array. -/
def coords (d : Nat) (pos : List F) : Fin d → F := fun k => pos.getD k 0

theorem addParticle_end (c : LdCfg F d) (s : LdState F d S) (pos : List F) (mass : F) (h : pos.length = d) :
    s.addParticle c pos mass (-1) false =
      .ok { s with particles := s.particles ++ [newParticle c (coords d pos) mass] } := by
  unfold LdState.addParticle
  rw [dif_pos h]
  simp only [Bool.false_eq_true, if_false, if_true]
  have : (fun k : Fin d => pos.get (k.cast h.symm)) = coords d pos := by
    funext k
    unfold coords
    rw [List.getD_eq_getElem?_getD, List.getElem?_eq_getElem (by omega)]
    rfl
  rw [this]

theorem addParticle_wrong (c : LdCfg F d) (s : LdState F d S) (pos : List F) (mass : F) (h : pos.length ≠ d) :
    s.addParticle c pos mass (-1) false = .error .valueError := by
  unfold LdState.addParticle
  rw [dif_neg h]

/-! ### C62: random distributions -/

theorem uniformPos_length (ops : InitRng R F) (ranges : List (F × F)) (r : R) :
    (uniformPos ops ranges r).1.length = ranges.length := by
  induction ranges generalizing r with
  | nil => rfl
  | cons x xs ih => simp [uniformPos, ih]

theorem uniformPos_mem [LE F] (ops : InitRng R F) (ho : ops.Lawful) (ranges : List (F × F)) (r : R)
    (hr : ∀ x ∈ ranges, x.1 ≤ x.2) :
    List.Forall₂ (fun u (x : F × F) => x.1 ≤ u ∧ u ≤ x.2) (uniformPos ops ranges r).1 ranges := by
  induction ranges generalizing r with
  | nil => exact .nil
  | cons x xs ih =>
    exact .cons (ho.uniform_mem _ _ _ (hr x List.mem_cons_self))
      (ih _ (fun y hy => hr y (List.mem_cons_of_mem _ hy)))

/-- A particle is at rest, has the given mass and its energy and forces are those of its position. -/
def Spec.Fresh (c : LdCfg F d) (mass : F) (p : LdParticle F d) : Prop :=
  p.mass = mass ∧ p.mom = (fun _ => 0) ∧ (p.energy, p.forces) = c.pot.evaluate p.pos ∧ p.c2 = c.c2of mass

theorem newParticle_fresh (c : LdCfg F d) (mass : F) (x : Fin d → F) :
    Spec.Fresh c mass (newParticle c x mass) := ⟨rfl, rfl, rfl, rfl⟩

/-- A position is inside the ranges of the potential. -/
def Spec.Inside [LE F] (ranges : List (F × F)) (x : Fin d → F) : Prop :=
  ∀ k : Fin d, ∃ r, ranges[k.val]? = some r ∧ r.1 ≤ x k ∧ x k ≤ r.2

/-- **C62.** random-global adds exactly the requested number of particles, all at rest and inside the
potential range, after the particles that were there before; for every generator satisfying numpy's
contract. -/
theorem random_global [LE F] (ops : InitRng R F) (ho : ops.Lawful) (c : LdCfg F d) (mass : F)
    (hd : c.pot.ranges.length = d) (hr : ∀ x ∈ c.pot.ranges, x.1 ≤ x.2) (n : Nat) (r : R)
    (s : LdState F d S) : ∃ new, initGlobal ops c mass n r s =
      .ok { s with particles := s.particles ++ new } ∧ new.length = n ∧
      ∀ p ∈ new, Spec.Fresh c mass p ∧ Spec.Inside c.pot.ranges p.pos := by
  induction n generalizing r s with
  | zero => exact ⟨[], by simp [initGlobal], rfl, by simp⟩
  | succ n ih =>
    have hl := uniformPos_length ops c.pot.ranges r
    have hm := uniformPos_mem ops ho c.pot.ranges r hr
    generalize hu : uniformPos ops c.pot.ranges r = u at hl hm
    obtain ⟨new, h1, h2, h3⟩ := ih u.2 { s with particles := s.particles ++ [newParticle c (coords d u.1) mass] }
    refine ⟨newParticle c (coords d u.1) mass :: new, ?_, by simp [h2], ?_⟩
    · simp only [initGlobal, hu, addParticle_end c s u.1 mass (hl.trans hd), ok_bind, h1, List.append_assoc,
        List.singleton_append]
    · intro p hp
      rcases List.mem_cons.1 hp with rfl | hp
      · refine ⟨newParticle_fresh c mass _, fun k => ?_⟩
        have hk : k.val < c.pot.ranges.length := by omega
        refine ⟨c.pot.ranges[k.val], List.getElem?_eq_getElem hk, ?_⟩
        have := (List.forall₂_iff_get.1 hm).2 k.val (by omega) hk
        show _ ≤ u.1.getD k.val 0 ∧ u.1.getD k.val 0 ≤ _
        rw [List.getD_eq_getElem?_getD, List.getElem?_eq_getElem (by omega)]
        exact this
      · exact h3 p hp

/-- C62: ranges of the wrong number of dimensions raise. -/
theorem random_global_dims (ops : InitRng R F) (c : LdCfg F d) (mass : F)
    (hd : c.pot.ranges.length ≠ d) (n : Nat) (r : R) (s : LdState F d S) :
    initGlobal ops c mass (n + 1) r s = .error .valueError := by
  simp only [initGlobal]
  rw [addParticle_wrong c s _ mass (by rw [uniformPos_length]; exact hd)]
  rfl

theorem chooseRow_ok [LE F] (ops : InitRng R F) (ho : ops.Lawful) (choices : List (List F)) (hne : choices ≠ [])
    (hl : ∀ p ∈ choices, p.length = d) (r : R) :
    ∃ p r', chooseRow ops choices r = .ok (p, r') ∧ p ∈ choices := by
  have hlt := ho.choice_lt choices.length r (List.length_pos_iff.2 hne)
  refine ⟨choices.getD (ops.choice choices.length r).1 [], (ops.choice choices.length r).2, ?_, ?_⟩
  · unfold chooseRow
    rw [if_neg]
    rintro (h | ⟨p, hp, h⟩)
    · exact hne h
    · apply h
      rw [hl p hp]
      cases choices with
      | nil => simp at hp
      | cons a l => exact (hl a List.mem_cons_self).symm
  · rw [List.getD_eq_getElem?_getD, List.getElem?_eq_getElem hlt]
    exact List.getElem_mem hlt

/-- **C62.** random-pos adds exactly the requested number of particles, each at rest at one of the given
positions. -/
theorem random_pos [LE F] (ops : InitRng R F) (ho : ops.Lawful) (c : LdCfg F d) (mass : F)
    (choices : List (List F)) (hne : choices ≠ []) (hl : ∀ p ∈ choices, p.length = d) (n : Nat) (r : R)
    (s : LdState F d S) : ∃ new, initChoice ops c mass choices n r s =
      .ok { s with particles := s.particles ++ new } ∧ new.length = n ∧
      ∀ p ∈ new, Spec.Fresh c mass p ∧ List.ofFn p.pos ∈ choices := by
  induction n generalizing r s with
  | zero => exact ⟨[], by simp [initChoice], rfl, by simp⟩
  | succ n ih =>
    obtain ⟨x, r', hx, hmem⟩ := chooseRow_ok ops ho choices hne hl r
    obtain ⟨new, h1, h2, h3⟩ := ih r' { s with particles := s.particles ++ [newParticle c (coords d x) mass] }
    refine ⟨newParticle c (coords d x) mass :: new, ?_, by simp [h2], ?_⟩
    · simp only [initChoice, hx, ok_bind, addParticle_end c s x mass (hl x hmem), h1, List.append_assoc,
        List.singleton_append]
    · intro p hp
      rcases List.mem_cons.1 hp with rfl | hp
      · refine ⟨newParticle_fresh c mass _, ?_⟩
        have : List.ofFn (coords d x) = x := by
          apply List.ext_getElem
          · simp [hl x hmem]
          · intro i h1 h2
            simp only [List.getElem_ofFn, coords]
            rw [List.getD_eq_getElem?_getD, List.getElem?_eq_getElem h2]
            rfl
        show List.ofFn (coords d x) ∈ choices
        rw [this]
        exact hmem
      · exact h3 p hp

/-- C62: without positions, and with positions of different lengths, numpy raises. -/
theorem random_pos_error (ops : InitRng R F) (c : LdCfg F d) (mass : F) (choices : List (List F))
    (h : choices = [] ∨ ∃ p ∈ choices, p.length ≠ (choices.headD []).length) (n : Nat) (r : R)
    (s : LdState F d S) : initChoice ops c mass choices (n + 1) r s = .error .valueError := by
  simp only [initChoice, chooseRow, if_pos h]
  rfl

/-! ### C61: fixed fractions -/

theorem addCopies_spec (c : LdCfg F d) (mass : F) (pos : List F) (h : pos.length = d) (n : Nat)
    (s : LdState F d S) : addCopies c mass pos n s =
      .ok { s with particles := s.particles ++ List.replicate n (newParticle c (coords d pos) mass) } := by
  induction n generalizing s with
  | zero => simp [addCopies]
  | succ n ih =>
    rw [addCopies, addParticle_end c s pos mass h, ok_bind, ih]
    simp [List.replicate_succ]

/-- The particles of fractions-pos: for every position in order as many as given. -/
def Spec.placed (c : LdCfg F d) (mass : F) (l : List (List F × Nat)) : List (LdParticle F d) :=
  l.flatMap (fun x => List.replicate x.2 (newParticle c (coords d x.1) mass))

theorem addAllCopies_spec (c : LdCfg F d) (mass : F) (l : List (List F × Int)) (h : ∀ x ∈ l, x.1.length = d)
    (s : LdState F d S) : addAllCopies c mass l s =
      .ok { s with particles := s.particles ++ Spec.placed c mass (l.map (fun x => (x.1, x.2.toNat))) } := by
  induction l generalizing s with
  | nil => simp [addAllCopies, Spec.placed]
  | cons x l ih =>
    obtain ⟨pos, n⟩ := x
    rw [addAllCopies, addCopies_spec c mass pos (h _ List.mem_cons_self), ok_bind,
      ih (fun y hy => h y (List.mem_cons_of_mem _ hy))]
    simp [Spec.placed]

theorem placed_length (c : LdCfg F d) (mass : F) (l : List (List F × Nat)) :
    (Spec.placed c mass l).length = (l.map (·.2)).sum := by
  induction l with
  | nil => rfl
  | cons x l ih =>
    unfold Spec.placed at ih ⊢
    rw [List.flatMap_cons, List.length_append, ih, List.length_replicate, List.map_cons, List.sum_cons]

section
variable [Add F] [Mul F] [Div F] [IntCast F] [DecidableEq F]

/-- C61, for every arithmetic and every conversion to integers: the counts sum to the requested number. -/
theorem fractionCounts_sum (trunc : F → Int) (fractions : List F) (number : Int) (counts : List Int)
    (h : fractionCounts trunc fractions number = .ok counts) :
    counts.sum = number ∧ counts.length = fractions.length := by
  unfold fractionCounts at h
  simp only at h
  split at h
  · cases h
  · rename_i hne
    split at h
    · cases h
    · cases h
      cases fractions with
      | nil => exact absurd rfl hne
      | cons a l =>
        simp only [List.map_cons, List.headD_cons, List.tail_cons, List.sum_cons, List.length_cons,
          List.length_map, and_true]
        omega

theorem toNat_sum (l : List Int) (h : ∀ n ∈ l, 0 ≤ n) : ((l.map Int.toNat).sum : Int) = l.sum := by
  induction l with
  | nil => rfl
  | cons a l ih =>
    have := ih (fun n hn => h n (List.mem_cons_of_mem _ hn))
    have h0 := h a List.mem_cons_self
    simp only [List.map_cons, List.sum_cons]
    omega

theorem zip_counts (choices : List (List F)) (counts : List Int) (hl : choices.length = counts.length) :
    ((choices.zip counts).map (fun x => (x.1, x.2.toNat))).map (·.2) = counts.map Int.toNat := by
  induction choices generalizing counts with
  | nil => cases counts with
    | nil => rfl
    | cons a l => simp at hl
  | cons p choices ih =>
    cases counts with
    | nil => simp at hl
    | cons a l => simp only [List.zip_cons_cons, List.map_cons, ih l (by simpa using hl)]

/-- **C61.** For every arithmetic and conversion to integers (e.g. doubles): if no count is negative, exactly
the requested number of particles is created. -/
theorem fractions_total_partial (trunc : F → Int) (c : LdCfg F d) (mass : F) (fractions : List F)
    (choices : List (List F)) (number : Nat) (s s' : LdState F d S) (counts : List Int)
    (hc : fractionCounts trunc fractions number = .ok counts) (h0 : ∀ n ∈ counts, 0 ≤ n)
    (hl : ∀ p ∈ choices, p.length = d)
    (h : initFractions trunc c mass fractions choices number s = .ok s') :
    s'.particles.length = s.particles.length + number := by
  unfold initFractions at h
  rw [hc, ok_bind] at h
  by_cases hlen : choices.length = counts.length
  · rw [if_neg (not_not.2 hlen)] at h
    simp only at h
    have h' : addAllCopies c mass (choices.zip counts) s = .ok s' := h
    rw [addAllCopies_spec c mass _ (fun x hx => hl _ (List.of_mem_zip hx).1)] at h'
    cases h'
    simp only [List.length_append, placed_length, zip_counts choices counts hlen]
    have h1 := toNat_sum counts h0
    rw [(fractionCounts_sum trunc fractions number counts hc).1] at h1
    omega
  · rw [if_pos hlen] at h
    cases h

/-- **C61.** Different numbers of positions and fractions raise `ValueError`. -/
theorem fractions_mismatch (trunc : F → Int) (c : LdCfg F d) (mass : F) (fractions : List F)
    (choices : List (List F)) (number : Int) (s : LdState F d S) (hne : fractions ≠ [])
    (h : choices.length ≠ fractions.length) :
    initFractions trunc c mass fractions choices number s = .error .valueError := by
  unfold initFractions
  cases hc : fractionCounts trunc fractions number with
  | error e =>
    unfold fractionCounts at hc
    simp only [if_neg hne] at hc
    split at hc <;> cases hc
    rfl
  | ok counts =>
    have := (fractionCounts_sum trunc fractions number counts hc).2
    rw [ok_bind, if_pos (by rw [this]; exact h)]
    rfl

end

end

section
variable {F : Type} [Field F] [LinearOrder F] [IsStrictOrderedRing F] [FloorRing F]

/-- Numbers of particles: position `i > 1` gets `floor(N f_i / sum f)`, the first one the rest. -/
def Spec.shares (fractions : List F) (number : Nat) : List Nat :=
  let rest := fractions.tail.map (fun f => ⌊(number : F) * f / fractions.sum⌋₊)
  (number - rest.sum) :: rest

theorem floor_sum_le (l : List F) (h : ∀ x ∈ l, 0 ≤ x) : ((l.map (fun x => ⌊x⌋₊)).sum : F) ≤ l.sum := by
  induction l with
  | nil => simp
  | cons a l ih =>
    have h1 := ih (fun x hx => h x (List.mem_cons_of_mem _ hx))
    have h2 := Nat.floor_le (h a List.mem_cons_self)
    simp only [List.map_cons, List.sum_cons, Nat.cast_add]
    linarith

theorem sum_map_mul_div (N S : F) (l : List F) : (l.map (fun f => N * f / S)).sum = N * l.sum / S := by
  induction l with
  | nil => simp
  | cons a l ih => simp only [List.map_cons, List.sum_cons, ih]; ring

/-- **C61.** The shares sum to the requested number, and the first position also gets at least its share. -/
theorem shares_spec (f : F) (fs : List F) (number : Nat) (h : ∀ x ∈ f :: fs, 0 ≤ x) (hs : 0 < (f :: fs).sum) :
    (Spec.shares (f :: fs) number).sum = number ∧
      ⌊(number : F) * f / (f :: fs).sum⌋₊ ≤ (Spec.shares (f :: fs) number).headD 0 := by
  have h1 := floor_sum_le (((f :: fs).map (fun x => (number : F) * x / (f :: fs).sum)))
    (by
      intro x hx
      obtain ⟨y, hy, rfl⟩ := List.mem_map.1 hx
      exact div_nonneg (mul_nonneg (Nat.cast_nonneg _) (h y hy)) hs.le)
  rw [sum_map_mul_div, mul_div_assoc, div_self hs.ne', mul_one, Nat.cast_le, List.map_map, List.map_cons,
    List.sum_cons] at h1
  have h2 : (fun x => ⌊x⌋₊) ∘ (fun x => (number : F) * x / (f :: fs).sum) =
      fun x => ⌊(number : F) * x / (f :: fs).sum⌋₊ := rfl
  rw [h2] at h1
  simp only [Spec.shares, List.tail_cons, List.sum_cons, List.headD_cons] at h1 ⊢
  omega

theorem pyTrunc_nonneg (x : F) (h : 0 ≤ x) : pyTrunc x = ((⌊x⌋₊ : Nat) : Int) := by
  unfold pyTrunc
  rw [if_pos h, Int.natCast_floor_eq_floor h]

theorem fractionCounts_exact (f : F) (fs : List F) (number : Nat) (h : ∀ x ∈ f :: fs, 0 ≤ x)
    (hs : 0 < (f :: fs).sum) :
    fractionCounts pyTrunc (f :: fs) (number : Int) =
      .ok ((Spec.shares (f :: fs) number).map (fun n : Nat => (n : Int))) := by
  have ht : ∀ x ∈ f :: fs, pyTrunc (x / (f :: fs).sum * ((number : Int) : F)) =
      ((⌊(number : F) * x / (f :: fs).sum⌋₊ : Nat) : Int) := by
    intro x hx
    have : x / (f :: fs).sum * ((number : Int) : F) = (number : F) * x / (f :: fs).sum := by
      push_cast; ring
    rw [this, pyTrunc_nonneg _ (div_nonneg (mul_nonneg (Nat.cast_nonneg _) (h x hx)) hs.le)]
  have hmap : (f :: fs).map (fun x => pyTrunc (x / (f :: fs).sum * ((number : Int) : F))) =
      ((f :: fs).map (fun x => ⌊(number : F) * x / (f :: fs).sum⌋₊)).map (fun n : Nat => (n : Int)) := by
    rw [List.map_map]
    exact List.map_congr_left ht
  obtain ⟨h1, h2⟩ := shares_spec f fs number h hs
  unfold fractionCounts
  simp only
  rw [if_neg (by simp), if_neg hs.ne', hmap]
  congr 1
  have hsum : ∀ l : List Nat, (l.map (fun n : Nat => (n : Int))).sum = ((l.sum : Nat) : Int) := by
    intro l
    induction l with
    | nil => rfl
    | cons a l ih => simp [ih]
  rw [hsum]
  simp only [Spec.shares, List.map_cons, List.headD_cons, List.tail_cons, List.sum_cons] at h1 h2 ⊢
  congr 1
  omega

/-- **C61.** For non-negative fractions with positive sum (exact arithmetic) fractions-pos creates exactly
the requested number of particles, in the order of the positions, position `i > 1` receiving
`floor(number * fraction_i / sum of fractions)` and the first one the remainder. -/
theorem fractions_partial {d : Nat} {S : Type} (c : LdCfg F d) (mass : F) (fractions : List F)
    (choices : List (List F)) (number : Nat) (s : LdState F d S) (h : ∀ x ∈ fractions, 0 ≤ x)
    (hs : 0 < fractions.sum) (hl : choices.length = fractions.length) (hd : ∀ p ∈ choices, p.length = d) :
    initFractions pyTrunc c mass fractions choices number s =
      .ok { s with particles := s.particles ++ Spec.placed c mass (choices.zip (Spec.shares fractions number)) } ∧
    (Spec.placed c mass (choices.zip (Spec.shares fractions number))).length = number := by
  cases fractions with
  | nil => simp at hs
  | cons f fs =>
    have hc := fractionCounts_exact f fs number h hs
    have hlen : choices.length = (Spec.shares (f :: fs) number).length := by
      rw [hl]; simp [Spec.shares]
    constructor
    · unfold initFractions
      rw [hc, ok_bind, if_neg (by rw [List.length_map]; exact not_not.2 hlen)]
      show addAllCopies c mass _ s = _
      rw [addAllCopies_spec c mass _ (fun x hx => hd _ (List.of_mem_zip hx).1)]
      congr 4
      rw [List.zip_map_right, List.map_map]
      conv_rhs => rw [← List.map_id (choices.zip (Spec.shares (f :: fs) number))]
      exact List.map_congr_left (fun x _ => by simp)
    · rw [placed_length]
      have : (choices.zip (Spec.shares (f :: fs) number)).map (·.2) = Spec.shares (f :: fs) number :=
        List.map_snd_zip (Nat.le_of_eq hlen.symm)
      rw [this]
      exact (shares_spec f fs number h hs).1

end

/-! ### Examples and the negation -/

/-- A one-dimensional configuration with integer numbers. -/
def exLdCfg : LdCfg Int 1 where
  pot := { energy := fun x => x 0, force := fun _ _ => -1, evaluate := fun x => (x 0, fun _ => -1),
           ranges := [(0, 10)], bc := none }
  dt := 1
  kt := 1
  half := 1
  c1 := 1
  c2of := id
  noiseFactor := 1

/-- Example for `fractions_partial`: ten particles with fractions 1 : 2 give 4 and 6. -/
example : Spec.shares [(1 : ℚ), 2] 10 = [4, 6] ∧ (∀ x ∈ [(1 : ℚ), 2], 0 ≤ x) ∧ 0 < [(1 : ℚ), 2].sum := by
  have h : ⌊(10 : ℚ) * 2 / ((1 : ℚ) + 2)⌋₊ = 6 := by
    rw [Nat.floor_eq_iff (by norm_num)]
    norm_num
  refine ⟨?_, by simp, by norm_num⟩
  simp [Spec.shares, h]

/-- Example of `fractions_total_partial`: integers with truncating division, both quotients are zero. -/
example : (initFractions id exLdCfg 1 [3, 1] [[5], [7]] 8 (⟨[], ()⟩ : LdState Int 1 Unit)).toOption.map
    (fun s => s.particles.map (fun p => p.pos 0)) = some [5, 5, 5, 5, 5, 5, 5, 5] := by decide

/-- **C61, negation.** A negative fraction, which the input parser accepts, gives more particles than
requested: fractions 2 and -1 with 10 particles create 20 (all numbers are exact). -/
theorem fractions_negative_false : ∃ s' : LdState Int 1 Unit,
    initFractions id exLdCfg 1 [2, -1] [[5], [7]] 10 (⟨[], ()⟩ : LdState Int 1 Unit) = .ok s' ∧
      s'.particles.length = 20 :=
  ⟨_, rfl, by decide⟩

end Bdld
