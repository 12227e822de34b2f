import Mathlib.Data.List.Sort
import Mathlib.Tactic.Ring
import Mathlib.Tactic.Linarith
import Verif.Model.Action
import Verif.Spec.Ring

namespace Bdld
open Spec

/-- Two strictly increasing lists with the same members are equal. -/
theorem eq_of_strictIncr {l₁ l₂ : List Nat} (h₁ : l₁.Pairwise (· < ·)) (h₂ : l₂.Pairwise (· < ·))
    (h : ∀ x, x ∈ l₁ ↔ x ∈ l₂) : l₁ = l₂ := by
  have hn₁ : l₁.Nodup := h₁.imp (fun h => Nat.ne_of_lt h)
  have hn₂ : l₂.Nodup := h₂.imp (fun h => Nat.ne_of_lt h)
  have hp : l₁.Perm l₂ := (List.perm_ext_iff_of_nodup hn₁ hn₂).2 h
  exact hp.eq_of_pairwise (fun a b _ _ h1 h2 => absurd h1 (Nat.lt_asymm h2)) h₁ h₂

theorem sampledSteps_pairwise (s a b : Nat) : (sampledSteps s a b).Pairwise (· < ·) :=
  List.Pairwise.filter _ List.pairwise_lt_range

theorem sampledSteps_append (s : Nat) {a b c : Nat} (hab : a ≤ b) (hbc : b ≤ c) :
    sampledSteps s a b ++ sampledSteps s b c = sampledSteps s a c := by
  refine eq_of_strictIncr ?_ (sampledSteps_pairwise _ _ _) ?_
  · rw [List.pairwise_append]
    refine ⟨sampledSteps_pairwise _ _ _, sampledSteps_pairwise _ _ _, ?_⟩
    intro x hx y hy
    rw [mem_sampledSteps] at hx hy
    omega
  · intro x
    rw [List.mem_append, mem_sampledSteps, mem_sampledSteps, mem_sampledSteps]
    constructor
    · rintro (h | h) <;> refine ⟨?_, ?_, h.2.2⟩ <;> omega
    · intro h
      by_cases hx : x ≤ b
      · left; exact ⟨h.1, hx, h.2.2⟩
      · right; exact ⟨by omega, h.2.1, h.2.2⟩

@[simp] theorem sampledSteps_self (s a : Nat) : sampledSteps s a a = [] := by
  apply List.eq_nil_iff_forall_not_mem.2
  intro x hx
  rw [mem_sampledSteps] at hx
  omega

theorem pyDiv_natCast (a b : Nat) : pyDiv (a : Int) (b : Int) = ((a / b : Nat) : Int) := by
  unfold pyDiv; rw [Int.fdiv_eq_ediv_of_nonneg _ (by omega)]; rfl

theorem pyMod_natCast (a b : Nat) : pyMod (a : Int) (b : Int) = ((a % b : Nat) : Int) := by
  unfold pyMod; rw [Int.fmod_eq_emod_of_nonneg _ (by omega)]; rfl

theorem sliceBound_natCast (n i : Nat) : sliceBound n (i : Int) = min i n := by
  unfold sliceBound; rw [if_neg (by omega)]; simp

/-- the indices visited by a slice -/
def sliceIdx (lo hi k : Nat) : List Nat :=
  (List.range hi).filter (fun i => decide (lo ≤ i) && (i - lo) % k == 0)

theorem pySlice_none {α} (l : List α) (lo k : Nat) (hk : 0 < k) :
    pySlice l (lo : Int) none (k : Int) =
      .ok ((sliceIdx (min lo l.length) l.length k).filterMap (fun i => l[i]?)) := by
  unfold pySlice
  rw [if_neg (by omega)]
  simp [sliceBound_natCast, sliceIdx]

theorem pySlice_some {α} (l : List α) (lo hi k : Nat) (hk : 0 < k) :
    pySlice l (lo : Int) (some (hi : Int)) (k : Int) =
      .ok ((sliceIdx (min lo l.length) (min hi l.length) k).filterMap (fun i => l[i]?)) := by
  unfold pySlice
  rw [if_neg (by omega)]
  simp [sliceBound_natCast, sliceIdx]

theorem mem_sliceIdx {lo hi k i : Nat} :
    i ∈ sliceIdx lo hi k ↔ i < hi ∧ lo ≤ i ∧ k ∣ (i - lo) := by
  simp [sliceIdx, Nat.dvd_iff_mod_eq_zero]

theorem sliceIdx_pairwise (lo hi k : Nat) : (sliceIdx lo hi k).Pairwise (· < ·) :=
  List.Pairwise.filter _ List.pairwise_lt_range

theorem sliceIdx_full (n : Nat) : sliceIdx 0 n 1 = List.range n := by
  refine eq_of_strictIncr (sliceIdx_pairwise _ _ _) List.pairwise_lt_range ?_
  intro x; rw [mem_sliceIdx]; simp

theorem filterMap_range_get {α} (l : List α) :
    (List.range l.length).filterMap (fun i => l[i]?) = l := by
  induction l with
  | nil => rfl
  | cons x xs ih =>
    rw [List.length_cons, List.range_succ_eq_map, List.filterMap_cons]
    simp only [List.getElem?_cons_zero, List.filterMap_map]
    congr 1

theorem filterMap_eq_map_of_forall {α β} {l : List α} {g : α → Option β} {h : α → β}
    (H : ∀ x ∈ l, g x = some (h x)) : l.filterMap g = l.map h := by
  induction l with
  | nil => rfl
  | cons x xs ih =>
    rw [List.filterMap_cons, H x (by simp), List.map_cons,
      ih (fun y hy => H y (List.mem_cons_of_mem _ hy))]

/-- Core re-indexing step: the rows picked by the slice are the sampled time steps. -/
theorem slice_eq_sampled {α} {data : List α} {f : Nat → α} {N u m now lw b : Nat}
    (hN : 0 < N) (hu : 0 < u) (hm : 0 < m) (hring : IsRing data f N u now)
    (hb : b = lw / u / N) (hwin : now / u ≤ N * (b + 1)) :
    (sliceIdx (min (lw / u % N + (m - 1) - lw / u % m) N) (now / u - N * b) m).filterMap
        (fun i => data[i]?)
      = (sampledSteps (m * u) lw now).map f := by
  obtain ⟨hlen, hrow⟩ := hring
  set a₀ := lw / u with ha₀
  set K := now / u with hK
  have ha : a₀ = N * b + a₀ % N := by rw [hb]; exact (Nat.div_add_mod a₀ N).symm
  have haN : a₀ % N < N := Nat.mod_lt _ hN
  have ham : a₀ % m < m := Nat.mod_lt _ hm
  have hhi : K - N * b ≤ N := by rw [Nat.mul_add] at hwin; omega
  -- membership: index i is visited iff k = N b + i + 1 is a multiple of m above a₀
  have key : ∀ i, i ∈ sliceIdx (min (a₀ % N + (m - 1) - a₀ % m) N) (K - N * b) m ↔
      i < K - N * b ∧ a₀ < N * b + i + 1 ∧ m ∣ N * b + i + 1 := by
    intro i
    rw [mem_sliceIdx]
    constructor
    · rintro ⟨h1, h2, h3⟩
      have h2' : a₀ % N + (m - 1) - a₀ % m ≤ i := by omega
      have hmin : min (a₀ % N + (m - 1) - a₀ % m) N = a₀ % N + (m - 1) - a₀ % m := by omega
      rw [hmin] at h3
      refine ⟨h1, by omega, ?_⟩
      have : N * b + i + 1 = (i - (a₀ % N + (m - 1) - a₀ % m)) + (m * (a₀ / m) + m) := by
        have := Nat.div_add_mod a₀ m
        omega
      rw [this]
      exact Nat.dvd_add h3 (Nat.dvd_add (Nat.dvd_mul_right _ _) (Nat.dvd_refl _))
    · rintro ⟨h1, h2, h3⟩
      have hdm := Nat.div_add_mod a₀ m
      -- the next multiple of m after a₀ is m (a₀/m + 1)
      obtain ⟨q, hq⟩ := h3
      have hq1 : a₀ / m + 1 ≤ q := by
        rw [Nat.succ_le_iff, Nat.div_lt_iff_lt_mul hm]
        rw [Nat.mul_comm]; omega
      have hq2 : m * (a₀ / m) + m ≤ m * q := by
        have := Nat.mul_le_mul_left m hq1
        rw [Nat.mul_add, Nat.mul_one] at this; exact this
      have hle : a₀ % N + (m - 1) - a₀ % m ≤ i := by omega
      refine ⟨h1, by omega, ?_⟩
      have hmin : min (a₀ % N + (m - 1) - a₀ % m) N = a₀ % N + (m - 1) - a₀ % m := by omega
      rw [hmin]
      have : i - (a₀ % N + (m - 1) - a₀ % m) = m * q - (m * (a₀ / m) + m) := by omega
      rw [this]
      exact Nat.dvd_sub (Nat.dvd_mul_right _ _) (Nat.dvd_add (Nat.dvd_mul_right _ _) (Nat.dvd_refl _))
  have hvals : ∀ i ∈ sliceIdx (min (a₀ % N + (m - 1) - a₀ % m) N) (K - N * b) m,
      data[i]? = some (f (u * (N * b + i + 1))) := by
    intro i hi
    obtain ⟨h1, h2, h3⟩ := (key i).1 hi
    have h := hrow (N * b + i + 1) (by omega) ?_ ?_
    · have : (N * b + i + 1 - 1) % N = i := by
        rw [Nat.add_sub_cancel, Nat.mul_add_mod, Nat.mod_eq_of_lt (by omega)]
      rwa [this] at h
    · have : N * b + i + 1 ≤ K := by omega
      calc u * (N * b + i + 1) ≤ u * K := Nat.mul_le_mul_left _ this
        _ ≤ now := Nat.mul_div_le _ _
    · have : K < N * b + i + 1 + N := by omega
      rw [hK, Nat.div_lt_iff_lt_mul hu, Nat.mul_comm] at this
      exact this
  rw [filterMap_eq_map_of_forall hvals]
  have hlist : (sliceIdx (min (a₀ % N + (m - 1) - a₀ % m) N) (K - N * b) m).map
      (fun i => u * (N * b + i + 1)) = sampledSteps (m * u) lw now := by
    refine eq_of_strictIncr ?_ (sampledSteps_pairwise _ _ _) ?_
    · rw [List.pairwise_map]
      refine (sliceIdx_pairwise _ _ _).imp ?_
      intro x y hxy
      exact Nat.mul_lt_mul_of_pos_left (by omega) hu
    · intro t
      rw [List.mem_map, mem_sampledSteps]
      constructor
      · rintro ⟨i, hi, rfl⟩
        obtain ⟨h1, h2, h3⟩ := (key i).1 hi
        refine ⟨?_, ?_, ?_⟩
        · rw [ha₀, Nat.div_lt_iff_lt_mul hu, Nat.mul_comm] at h2; exact h2
        · have : N * b + i + 1 ≤ K := by omega
          calc u * (N * b + i + 1) ≤ u * K := Nat.mul_le_mul_left _ this
            _ ≤ now := Nat.mul_div_le _ _
        · rw [Nat.mul_comm m u]; exact Nat.mul_dvd_mul_left u h3
      · rintro ⟨h1, h2, q, rfl⟩
        have e : m * u * q = u * (m * q) := by ring
        rw [e] at h1 h2 ⊢
        have h1' : a₀ < m * q := by
          rw [ha₀, Nat.div_lt_iff_lt_mul hu, Nat.mul_comm]; exact h1
        have h2' : m * q ≤ K := by
          rw [hK, Nat.le_div_iff_mul_le hu, Nat.mul_comm]; exact h2
        have hpos : N * b + (m * q - N * b - 1) + 1 = m * q := by omega
        refine ⟨m * q - N * b - 1, (key _).2 ⟨by omega, by omega, ?_⟩, ?_⟩
        · rw [hpos]; exact Nat.dvd_mul_right _ _
        · rw [hpos]
  rw [← hlist, List.map_map]
  rfl

theorem mod_mul_div (x N u : Nat) : x % (N * u) / u = x / u % N := by
  rw [Nat.mul_comm, Nat.mod_mul_right_div_self]

/-- Unfolded form of `getValidData` on natural number arguments. -/
theorem getValidData_nat {α} (data : List α) (N u m now lw : Nat) (hlen : data.length = N)
    (hN : 0 < N) (hu : 0 < u) (hm : 0 < m) (hne : now ≠ lw) :
    getValidData data (now : Int) ((m * u : Nat) : Int) (u : Int) (lw : Int) =
      .ok ((sliceIdx (min (lw / u % N + (m - 1) - lw / u % m) N)
        (if now / u % N = 0 then N else now / u % N) m).filterMap (fun i => data[i]?)) := by
  have hNu : 0 < N * u := Nat.mul_pos hN hu
  have hmu : 0 < m * u := Nat.mul_pos hm hu
  have ham : lw / u % m < m := Nat.mod_lt _ hm
  have e1 : pyDiv (pyMod (lw : Int) ((N * u : Nat) : Int)) (u : Int) = ((lw / u % N : Nat) : Int) := by
    rw [pyMod_natCast, pyDiv_natCast, mod_mul_div]
  have e2 : pyDiv (pyMod (now : Int) ((N * u : Nat) : Int)) (u : Int) = ((now / u % N : Nat) : Int) := by
    rw [pyMod_natCast, pyDiv_natCast, mod_mul_div]
  have e3 : pyDiv (pyMod (lw : Int) ((m * u : Nat) : Int)) (u : Int) = ((lw / u % m : Nat) : Int) := by
    rw [pyMod_natCast, pyDiv_natCast, mod_mul_div]
  have e4 : pyDiv ((m * u : Nat) : Int) (u : Int) = (m : Int) := by
    rw [pyDiv_natCast, Nat.mul_div_cancel _ hu]
  have e5 : ((lw / u % N : Nat) : Int) + ((m : Int) - 1) - ((lw / u % m : Nat) : Int)
      = ((lw / u % N + (m - 1) - lw / u % m : Nat) : Int) := by omega
  have e0 : (data.length : Int) * (u : Int) = ((N * u : Nat) : Int) := by rw [hlen]; simp
  unfold getValidData
  rw [if_neg (by omega)]
  simp only [e0, e1, e2, e3, e4, e5]
  rw [if_neg (by omega)]
  by_cases hs : ((m * u : Nat) : Int) = (u : Int) ∧ ((lw / u % N : Nat) : Int) = 0 ∧
      ((now / u % N : Nat) : Int) = 0
  · rw [if_pos hs]
    obtain ⟨h1, h2, h3⟩ := hs
    have hm1 : m = 1 := by
      have : m * u = 1 * u := by omega
      exact Nat.eq_of_mul_eq_mul_right hu this
    have h2' : lw / u % N = 0 := by omega
    have h3' : now / u % N = 0 := by omega
    subst hm1
    rw [h2', if_pos h3']
    have : min (0 + (1 - 1) - lw / u % 1) N = 0 := by omega
    rw [this, sliceIdx_full, ← hlen, filterMap_range_get]
  · rw [if_neg hs, if_neg (by omega)]
    by_cases hL : now / u % N = 0
    · rw [if_pos (by omega), if_pos hL, pySlice_none _ _ _ hm, hlen]
    · rw [if_neg (by omega), if_neg hL, pySlice_some _ _ _ _ hm, hlen]
      have : now / u % N < N := Nat.mod_lt _ hN
      rw [Nat.min_eq_left (Nat.le_of_lt this)]

end Bdld
