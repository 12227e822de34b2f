import Mathlib.Data.List.TakeWhile
import Verif.Props.Interpolation
import Verif.Props.Defaults
import Verif.Spec.References

/-
C129: values that refer to other options.
-/

namespace Bdld
open Spec

theorem span_name {name : List Char} (h : ')' ∉ name) (r : List Char) :
    (name ++ ')' :: r).span (· ≠ ')') = (name, ')' :: r) := by
  rw [List.span_eq_takeWhile_dropWhile]
  have h1 : ∀ c ∈ name, (decide (c ≠ ')')) = true := fun c hc => by
    simp only [decide_eq_true_eq]
    rintro rfl
    exact h hc
  rw [List.takeWhile_append_of_pos h1, List.dropWhile_append_of_pos h1]
  simp

theorem matchKey_iff (rest : List Char) (name : String) (rest' : List Char) :
    matchKey rest = some (name, rest') ↔
      name.toList ≠ [] ∧ ')' ∉ name.toList ∧ rest = name.toList ++ ')' :: 's' :: rest' := by
  constructor
  · intro h
    have hs : rest.takeWhile (· ≠ ')') ++ rest.dropWhile (· ≠ ')') = rest := List.takeWhile_append_dropWhile
    have hn : ')' ∉ rest.takeWhile (· ≠ ')') := fun hm => by
      have := List.mem_takeWhile_imp hm
      simp at this
    unfold matchKey at h
    rw [List.span_eq_takeWhile_dropWhile] at h
    generalize rest.takeWhile (· ≠ ')') = a at *
    generalize rest.dropWhile (· ≠ ')') = b at *
    split at h
    · cases h
    · rename_i hne e
      cases e
      cases h
      rw [String.toList_ofList]
      refine ⟨fun e => hne (by rw [e]), hn, hs.symm⟩
    · cases h
  · rintro ⟨h1, h2, rfl⟩
    unfold matchKey
    rw [span_name h2]
    split
    · rename_i e
      exact absurd (congrArg Prod.fst e) h1
    · rename_i e
      cases e
      rw [String.ofList_toList]
    · rename_i e1 e2
      exact absurd rfl (e2 _ _)

theorem refText_length (name v : List Char) : (refText name ++ v).length = name.length + 4 + v.length := by
  simp [refText]; omega

/-- One level: what the loop does if the values of other options are handled by `rec`. -/
theorem interpLoop_of_resolves (map : String → Option (List Char)) :
    ∀ n v w, Resolves map n v w → ∀ k, v.length ≤ k → interpLoop map (interpDepth map n) k v = .ok w := by
  intro n v w h
  induction h with
  | nil => intro k _; cases k <;> rfl
  | char hc h ih =>
    intro k hk
    obtain ⟨m, rfl⟩ : ∃ m, k = m + 1 := ⟨k - 1, by simp at hk; omega⟩
    rw [interpLoop_cons _ _ _ _ _ hc, ih m (by simp at hk; omega)]
    rfl
  | percent h ih =>
    intro k hk
    obtain ⟨m, rfl⟩ : ∃ m, k = m + 1 := ⟨k - 1, by simp at hk; omega⟩
    rw [interpLoop, ih m (by simp at hk; omega)]
    rfl
  | @plain n name x v w h1 h2 h3 h4 h ih =>
    intro k hk
    rw [refText_length] at hk
    obtain ⟨m, rfl⟩ : ∃ m, k = m + 1 := ⟨k - 1, by omega⟩
    have hm : matchKey (name ++ ')' :: 's' :: v) = some (String.ofList name, v) :=
      (matchKey_iff _ _ _).2 ⟨by rwa [String.toList_ofList], by rwa [String.toList_ofList], by rw [String.toList_ofList]⟩
    rw [show refText name ++ v = '%' :: '(' :: (name ++ ')' :: 's' :: v) by simp [refText], interpLoop, hm]
    simp only [String.toList_ofList]
    rw [show map (String.ofList (name.map Char.toLower)) = some x from h3]
    simp only [if_neg h4, ok_bind, ih m (by omega), pure_eq_ok]
  | @nested n name x y v w h1 h2 h3 h4 h5 h ih5 ih =>
    intro k hk
    rw [refText_length] at hk
    obtain ⟨m, rfl⟩ : ∃ m, k = m + 1 := ⟨k - 1, by omega⟩
    have hm : matchKey (name ++ ')' :: 's' :: v) = some (String.ofList name, v) :=
      (matchKey_iff _ _ _).2 ⟨by rwa [String.toList_ofList], by rwa [String.toList_ofList], by rw [String.toList_ofList]⟩
    rw [show refText name ++ v = '%' :: '(' :: (name ++ ')' :: 's' :: v) by simp [refText], interpLoop, hm]
    simp only [String.toList_ofList]
    rw [show map (String.ofList (name.map Char.toLower)) = some x from h3]
    simp only [if_pos h4]
    rw [show interpDepth map (n + 1) x = .ok y from ih5 _ (Nat.le_refl _)]
    simp only [ok_bind, ih m (by omega), pure_eq_ok]

theorem resolves_of_interp (map : String → Option (List Char)) :
    ∀ n k v w, v.length ≤ k → interpLoop map (interpDepth map n) k v = .ok w → Resolves map n v w := by
  intro n
  induction n with
  | zero =>
    intro k
    induction k with
    | zero =>
      intro v w hv h
      obtain rfl : v = [] := List.eq_nil_of_length_eq_zero (by omega)
      cases h
      exact .nil
    | succ k ih =>
      intro v w hv h
      rw [interpLoop.eq_def] at h
      split at h
      · cases h; exact .nil
      · rename_i e; cases e
      · rename_i e; cases e
        obtain ⟨u, hu, h⟩ := bind_ok h
        cases h
        exact .percent (ih _ _ (by simp at hv; omega) hu)
      · rename_i e; cases e
        split at h
        · cases h
        · rename_i name rest' hm
          obtain ⟨a1, a2, rfl⟩ := (matchKey_iff _ _ _).1 hm
          split at h
          · cases h
          · rename_i x hx
            obtain ⟨y, hy, h⟩ := bind_ok h
            obtain ⟨u, hu, h⟩ := bind_ok h
            cases h
            split_ifs at hy with hp
            · cases hy
            · cases hy
              have := Resolves.plain (map := map) a1 a2 hx hp (ih _ _ (by simp at hv; omega) hu)
              simpa [refText] using this
      · cases h
      · rename_i e1 e2 e3 e4 e
        cases e
        obtain ⟨u, hu, h⟩ := bind_ok h
        cases h
        refine .char ?_ (ih _ _ (by simp at hv; omega) hu)
        rintro rfl
        exact e4 rfl
  | succ n ihn =>
    intro k
    induction k with
    | zero =>
      intro v w hv h
      obtain rfl : v = [] := List.eq_nil_of_length_eq_zero (by omega)
      cases h
      exact .nil
    | succ k ih =>
      intro v w hv h
      rw [interpLoop.eq_def] at h
      split at h
      · cases h; exact .nil
      · rename_i e; cases e
      · rename_i e; cases e
        obtain ⟨u, hu, h⟩ := bind_ok h
        cases h
        exact .percent (ih _ _ (by simp at hv; omega) hu)
      · rename_i e; cases e
        split at h
        · cases h
        · rename_i name rest' hm
          obtain ⟨a1, a2, rfl⟩ := (matchKey_iff _ _ _).1 hm
          split at h
          · cases h
          · rename_i x hx
            obtain ⟨y, hy, h⟩ := bind_ok h
            obtain ⟨u, hu, h⟩ := bind_ok h
            cases h
            split_ifs at hy with hp
            · have := Resolves.nested (map := map) a1 a2 hx hp (ihn _ _ _ (Nat.le_refl _) hy) (ih _ _ (by simp at hv; omega) hu)
              simpa [refText] using this
            · cases hy
              have := Resolves.plain (map := map) a1 a2 hx hp (ih _ _ (by simp at hv; omega) hu)
              simpa [refText] using this
      · cases h
      · rename_i e1 e2 e3 e4 e
        cases e
        obtain ⟨u, hu, h⟩ := bind_ok h
        cases h
        refine .char ?_ (ih _ _ (by simp at hv; omega) hu)
        rintro rfl
        exact e4 rfl

/-- **C129.** A value is read as the text it stands for, with references at most nine options deep. -/
theorem interpolate_iff (map : String → Option (List Char)) (v w : List Char) :
    interpolate map v = .ok w ↔ Resolves map 9 v w :=
  ⟨resolves_of_interp map 9 _ v w (Nat.le_refl _), fun h => interpLoop_of_resolves map 9 v w h _ (Nat.le_refl _)⟩

/-! ### Consequences -/

theorem Spec.Resolves.mono {map : String → Option (List Char)} {n : Nat} {v w : List Char} (h : Resolves map n v w) :
    ∀ m, n ≤ m → Resolves map m v w := by
  induction h with
  | nil => exact fun _ _ => .nil
  | char hc _ ih => exact fun m hm => .char hc (ih m hm)
  | percent _ ih => exact fun m hm => .percent (ih m hm)
  | plain h1 h2 h3 h4 _ ih => exact fun m hm => .plain h1 h2 h3 h4 (ih m hm)
  | nested h1 h2 h3 h4 _ _ ih5 ih =>
    intro m hm
    obtain ⟨m, rfl⟩ : ∃ k, m = k + 1 := ⟨m - 1, by omega⟩
    exact .nested h1 h2 h3 h4 (ih5 m (by omega)) (ih _ hm)

/-- What a value stands for does not depend on the way. -/
theorem Spec.Resolves.unique {map : String → Option (List Char)} {n m : Nat} {v w w' : List Char} (h : Resolves map n v w)
    (h' : Resolves map m v w') : w = w' := by
  have a := interpLoop_of_resolves map _ _ _ (h.mono (max n m) (le_max_left _ _)) _ (Nat.le_refl _)
  have b := interpLoop_of_resolves map _ _ _ (h'.mono (max n m) (le_max_right _ _)) _ (Nat.le_refl _)
  rw [a] at b
  exact Except.ok.inj b

theorem interpLoop_error (map : String → Option (List Char)) (rec : List Char → Except PyErr (List Char))
    (hrec : ∀ v e, rec v = .error e → e = .interpolationError) : ∀ k v e, interpLoop map rec k v = .error e → e = .interpolationError := by
  intro k
  induction k with
  | zero => intro v e h; cases v <;> cases h
  | succ k ih =>
    have step : ∀ (v : List Char) (f : List Char → List Char) e,
        (interpLoop map rec k v >>= fun w => Except.ok (f w)) = .error e → e = .interpolationError := by
      intro v f e h
      cases hv : interpLoop map rec k v with
      | error e' => rw [hv] at h; cases h; exact ih _ _ hv
      | ok w => rw [hv] at h; cases h
    intro v e h
    rw [interpLoop.eq_def] at h
    split at h
    · cases h
    · rename_i e'; cases e'
    · rename_i e'; cases e'
      exact step _ _ _ h
    · rename_i e'; cases e'
      split at h
      · cases h; rfl
      · split at h
        · cases h; rfl
        · rename_i x _
          cases hy : (if '%' ∈ x then rec x else .ok x) with
          | error e' =>
            rw [hy] at h
            cases h
            split_ifs at hy
            · exact hrec _ _ hy
          | ok y =>
            rw [hy, ok_bind] at h
            exact step _ _ _ h
    · cases h; rfl
    · rename_i e'
      cases e'
      exact step _ _ _ h

theorem interpDepth_error (map : String → Option (List Char)) : ∀ n v e, interpDepth map n v = .error e → e = .interpolationError := by
  intro n
  induction n with
  | zero => intro v e h; cases h; rfl
  | succ n ih => intro v e h; exact interpLoop_error map _ ih _ _ _ h

/-- **C129.** All other values raise an error of configparser (which `main` does not catch). -/
theorem interpolate_error (map : String → Option (List Char)) (v : List Char) :
    interpolate map v = .error .interpolationError ↔ ¬ ∃ w, Resolves map 9 v w := by
  cases h : interpolate map v with
  | ok w => simp only [reduceCtorEq, false_iff, not_not]; exact ⟨w, (interpolate_iff _ _ _).1 h⟩
  | error e =>
    obtain rfl := interpDepth_error map _ _ _ h
    simp only [true_iff]
    rintro ⟨w, hw⟩
    rw [(interpolate_iff _ _ _).2 hw] at h
    cases h

/-- What a value stands for that begins with plain text and a reference. -/
theorem resolves_ref {map : String → Option (List Char)} {n : Nat} {pre name v w : List Char} (hp : '%' ∉ pre) (hn : ')' ∉ name)
    (h : Resolves map n (pre ++ (refText name ++ v)) w) : ∃ x y, optionNamed map name = some x ∧
      (('%' ∉ x ∧ y = x) ∨ ('%' ∈ x ∧ ∃ m, n = m + 1 ∧ Resolves map m x y)) ∧ ∃ u, w = pre ++ (y ++ u) ∧ Resolves map n v u := by
  induction pre generalizing w with
  | nil =>
    rw [List.nil_append] at h
    generalize hv : refText name ++ v = t at h
    cases h with
    | nil => cases hv
    | char hc _ => simp only [refText, List.cons_append, List.cons.injEq] at hv; exact absurd hv.1.symm hc
    | percent _ => simp [refText] at hv
    | @plain n name' x v' w h1 h2 h3 h4 h =>
      simp only [refText, List.cons_append, List.cons.injEq, List.append_assoc, true_and] at hv
      obtain ⟨rfl, e⟩ : name = name' ∧ v = v' := by
        have a := congrArg (fun l : List Char => l.span (· ≠ ')')) hv
        simp only [List.nil_append] at a
        rw [span_name hn, span_name h2] at a
        exact ⟨congrArg Prod.fst a, by simpa using congrArg Prod.snd a⟩
      subst e
      exact ⟨x, x, h3, .inl ⟨h4, rfl⟩, w, rfl, h⟩
    | @nested n name' x y v' w h1 h2 h3 h4 h5 h =>
      simp only [refText, List.cons_append, List.cons.injEq, List.append_assoc, true_and] at hv
      obtain ⟨rfl, e⟩ : name = name' ∧ v = v' := by
        have a := congrArg (fun l : List Char => l.span (· ≠ ')')) hv
        simp only [List.nil_append] at a
        rw [span_name hn, span_name h2] at a
        exact ⟨congrArg Prod.fst a, by simpa using congrArg Prod.snd a⟩
      subst e
      exact ⟨x, y, h3, .inr ⟨h4, n, rfl, h5⟩, w, rfl, h⟩
  | cons c pre ih =>
    rw [List.mem_cons, not_or] at hp
    generalize hv : (c :: pre) ++ (refText name ++ v) = t at h
    cases h with
    | nil => cases hv
    | char hc h =>
      simp only [List.cons_append, List.cons.injEq] at hv
      obtain ⟨rfl, rfl⟩ := hv
      obtain ⟨x, y, a, b, u, rfl, d⟩ := ih hp.2 h
      exact ⟨x, y, a, b, u, rfl, d⟩
    | percent _ => simp only [List.cons_append, List.cons.injEq] at hv; exact absurd hv.1.symm hp.1
    | plain => simp only [refText, List.cons_append, List.cons.injEq] at hv; exact absurd hv.1.symm hp.1
    | nested => simp only [refText, List.cons_append, List.cons.injEq] at hv; exact absurd hv.1.symm hp.1

/-- **C129.** A set of options in which every value refers to an option of the set cannot be read: no loops. -/
theorem reference_loop (map : String → Option (List Char)) (loop : List Char → Prop)
    (hl : ∀ x, loop x → ∃ pre name post y, x = pre ++ (refText name ++ post) ∧ '%' ∉ pre ∧ ')' ∉ name ∧
      optionNamed map name = some y ∧ loop y) (v : List Char) (hv : loop v) :
    interpolate map v = .error .interpolationError := by
  rw [interpolate_error]
  have key : ∀ n v, loop v → ¬ ∃ w, Resolves map n v w := by
    intro n
    induction n with
    | zero =>
      rintro v hv ⟨w, hw⟩
      obtain ⟨pre, name, post, y, rfl, h1, h2, h3, h4⟩ := hl v hv
      obtain ⟨x, z, a, b, -⟩ := resolves_ref h1 h2 hw
      rw [h3] at a
      cases a
      rcases b with ⟨b, -⟩ | ⟨-, m, e, -⟩
      · obtain ⟨pre', name', post', y', rfl, -⟩ := hl _ h4
        exact b (by simp [refText])
      · cases e
    | succ n ih =>
      rintro v hv ⟨w, hw⟩
      obtain ⟨pre, name, post, y, rfl, h1, h2, h3, h4⟩ := hl v hv
      obtain ⟨x, z, a, b, -⟩ := resolves_ref h1 h2 hw
      rw [h3] at a
      cases a
      rcases b with ⟨b, -⟩ | ⟨-, m, e, b⟩
      · obtain ⟨pre', name', post', y', rfl, -⟩ := hl _ h4
        exact b (by simp [refText])
      · cases e
        exact ih _ h4 ⟨_, b⟩
  exact key 9 v hv

/-- **C129.** A chain of references is read if it has at most ten links, and only then. -/
theorem reference_chain (map : String → Option (List Char)) (name : Nat → List Char) (k : Nat) (t : List Char)
    (h1 : ∀ i, name i ≠ []) (h2 : ∀ i, ')' ∉ name i) (hlink : ∀ i < k, optionNamed map (name i) = some (refText (name (i + 1))))
    (hend : optionNamed map (name k) = some t) (ht : '%' ∉ t) :
    interpolate map (refText (name 0)) = if k < 10 then .ok t else .error .interpolationError := by
  have up : ∀ j ≤ k, Resolves map j (refText (name (k - j))) t := by
    intro j
    induction j with
    | zero =>
      intro _
      have := Resolves.plain (n := 0) (map := map) (h1 k) (h2 k) hend ht .nil
      simpa using this
    | succ j ih =>
      intro hj
      have := Resolves.nested (n := j) (map := map) (h1 (k - (j + 1))) (h2 _) (hlink _ (by omega)) (by simp [refText])
        (by have := ih (by omega); rwa [show k - j = k - (j + 1) + 1 by omega] at this) .nil
      simpa using this
  have down : ∀ n i w, i ≤ k → Resolves map n (refText (name i)) w → k ≤ i + n := by
    intro n
    induction n with
    | zero =>
      intro i w hi h
      by_contra hlt
      obtain ⟨x, y, a, b, -⟩ := resolves_ref (pre := []) (v := []) (by simp) (h2 i) (by simpa using h)
      rw [hlink i (by omega)] at a
      cases a
      rcases b with ⟨b, -⟩ | ⟨-, m, e, -⟩
      · exact b (by simp [refText])
      · cases e
    | succ n ih =>
      intro i w hi h
      by_contra hlt
      obtain ⟨x, y, a, b, -⟩ := resolves_ref (pre := []) (v := []) (by simp) (h2 i) (by simpa using h)
      rw [hlink i (by omega)] at a
      cases a
      rcases b with ⟨b, -⟩ | ⟨-, m, e, b⟩
      · exact b (by simp [refText])
      · cases e
        have := ih (i + 1) y (by omega) b
        omega
  split_ifs with hk
  · rw [interpolate_iff]
    have := (up k (Nat.le_refl _)).mono 9 (by omega)
    rwa [Nat.sub_self] at this
  · rw [interpolate_error]
    rintro ⟨w, hw⟩
    have := down 9 0 w (by omega) hw
    omega

/-! ### Options of the input -/

/-- **C129.** A text option is read as the text it stands for. -/
theorem string_option_iff {F : Type} (c : Conv F) (name key : String) (raw : Dict String) (v : String) (b : Bool)
    (hk : raw.get? key = some v) (w : String) :
    ({ key := key, keytype := .base .str, compulsory := b } : InputOption F).parse c (Section.ofRaw name raw) = .ok (.base (.str w)) ↔
      Resolves (fun k => (raw.get? k).map String.toList) 9 v.toList w.toList := by
  rw [← interpolate_iff]
  unfold InputOption.parse
  rw [ofRaw_get, hk]
  simp only [Option.map_some, InputOption.convert]
  cases h : interpolate (fun k => (raw.get? k).map String.toList) v.toList with
  | error e => simp [Except.map]
  | ok l =>
    simp only [Except.map, ok_bind, pure_eq_ok, Except.ok.injEq, OptVal.base.injEq, BaseVal.str.injEq]
    constructor
    · rintro rfl; rw [String.toList_ofList]
    · rintro rfl; rw [String.ofList_toList]

/-! ### Examples -/

/-- Options of a file: a name built from other ones, and a loop. -/
def refOptions : Dict String := [("run", "42"), ("base", "out%%_%(run)s"), ("filename", "%(BASE)s.traj"), ("a", "x%(b)s"), ("b", "%(a)s")]

/-- `%(BASE)s.traj` is `out%_42.traj` -/
example : interpolate (fun k => (refOptions.get? k).map String.toList) "%(BASE)s.traj".toList = .ok "out%_42.traj".toList := by decide +kernel
example : Resolves (fun k => (refOptions.get? k).map String.toList) 9 "%(BASE)s.traj".toList "out%_42.traj".toList :=
  (interpolate_iff _ _ _).1 (by decide +kernel)
/-- the hypotheses of `reference_loop` are met by `a` and `b` -/
example : interpolate (fun k => (refOptions.get? k).map String.toList) "x%(b)s".toList = .error .interpolationError := by
  refine reference_loop _ (fun x => x = "x%(b)s".toList ∨ x = "%(a)s".toList) ?_ _ (.inl rfl)
  rintro x (rfl | rfl)
  · exact ⟨"x".toList, "b".toList, [], "%(a)s".toList, by decide, by decide, by decide, by decide +kernel, .inr rfl⟩
  · exact ⟨[], "a".toList, [], "x%(b)s".toList, by decide, by decide, by decide, by decide +kernel, .inl rfl⟩
/-- an unknown name, a single percent sign -/
example : interpolate (fun k => (refOptions.get? k).map String.toList) "%(nothing)s".toList = .error .interpolationError := by decide +kernel
example : interpolate (fun k => (refOptions.get? k).map String.toList) "50%".toList = .error .interpolationError := by decide +kernel

/-- A chain `a → aa → aaa → …` of `k` links and a last value. -/
def chainOptions (k : Nat) : String → Option (List Char) := fun key =>
  let i := key.length - 1
  if i < k then some (refText (List.replicate (i + 2) 'a')) else if i = k then some "7".toList else none

/-- ten links are read, eleven are not -/
example : interpolate (chainOptions 9) "%(a)s".toList = .ok "7".toList := by decide +kernel
example : interpolate (chainOptions 10) "%(a)s".toList = .error .interpolationError := by decide +kernel
example (k : Nat) : interpolate (chainOptions k) "%(a)s".toList = if k < 10 then .ok "7".toList else .error .interpolationError := by
  have key : ∀ n, optionNamed (chainOptions k) (List.replicate (n + 1) 'a') =
      if n < k then some (refText (List.replicate (n + 2) 'a')) else if n = k then some "7".toList else none := by
    intro n
    simp only [optionNamed, chainOptions]
    simp
  refine reference_chain (chainOptions k) (fun i => List.replicate (i + 1) 'a') k "7".toList (by simp) (by simp) ?_ ?_ (by decide)
  · intro i hi; rw [key, if_pos hi]
  · rw [key, if_neg (by omega), if_pos rfl]

end Bdld
