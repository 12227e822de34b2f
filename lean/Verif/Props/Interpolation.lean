import Verif.Model.Interpolation
import Verif.Props.InputSections

/-
Values with percent signs in the input file (C78).
-/

namespace Bdld

/-- A value with all percent signs doubled. -/
def Spec.escape : List Char → List Char
  | [] => []
  | c :: l => if c = '%' then '%' :: '%' :: Spec.escape l else c :: Spec.escape l

theorem interpLoop_cons (map : String → Option (List Char)) (rec : List Char → Except PyErr (List Char))
    (n : Nat) (c : Char) (rest : List Char) (hc : c ≠ '%') :
    interpLoop map rec (n + 1) (c :: rest) = (do return c :: (← interpLoop map rec n rest)) := by
  rw [interpLoop.eq_def]
  split
  · simp_all
  · simp_all
  · rename_i heq
    simp only [List.cons.injEq] at heq
    exact (hc heq.1).elim
  · rename_i heq
    simp only [List.cons.injEq] at heq
    exact (hc heq.1).elim
  · rename_i heq
    simp only [List.cons.injEq] at heq
    exact (hc heq.1).elim
  · simp_all

theorem interpLoop_escape (map : String → Option (List Char)) (rec : List Char → Except PyErr (List Char))
    (n : Nat) (v : List Char) (hn : (Spec.escape v).length ≤ n) :
    interpLoop map rec n (Spec.escape v) = .ok v := by
  induction v generalizing n with
  | nil => cases n <;> rfl
  | cons c v ih =>
    unfold Spec.escape at hn ⊢
    by_cases hc : c = '%'
    · rw [if_pos hc] at hn ⊢
      subst hc
      simp only [List.length_cons] at hn
      obtain ⟨m, rfl⟩ : ∃ m, n = m + 1 := ⟨n - 1, by omega⟩
      rw [interpLoop, ih m (by omega)]
      rfl
    · rw [if_neg hc] at hn ⊢
      simp only [List.length_cons] at hn
      obtain ⟨m, rfl⟩ : ∃ m, n = m + 1 := ⟨n - 1, by omega⟩
      rw [interpLoop_cons _ _ _ _ _ hc, ih m (by omega)]
      rfl

/-- A value with doubled percent signs is read as intended, whatever the other keys are. -/
theorem interpolate_escape (map : String → Option (List Char)) (v : List Char) :
    interpolate map (Spec.escape v) = .ok v :=
  interpLoop_escape map _ _ v (Nat.le_refl _)

theorem escape_plain (v : List Char) (h : '%' ∉ v) : Spec.escape v = v := by
  induction v with
  | nil => rfl
  | cons c v ih =>
    rw [List.mem_cons, not_or] at h
    rw [Spec.escape, if_neg (fun e => h.1 e.symm), ih h.2]

/-- A value without percent signs is unchanged. -/
theorem interpolate_plain (map : String → Option (List Char)) (v : List Char) (h : '%' ∉ v) :
    interpolate map v = .ok v := by
  have := interpolate_escape map v
  rwa [escape_plain v h] at this

theorem interpLoop_lone (map : String → Option (List Char)) (rec : List Char → Except PyErr (List Char))
    (n : Nat) (pre post : List Char) (hp : '%' ∉ pre)
    (h : ∀ c ∈ post.head?, c ≠ '%' ∧ c ≠ '(') (hn : (pre ++ '%' :: post).length ≤ n) :
    interpLoop map rec n (pre ++ '%' :: post) = .error .interpolationError := by
  induction pre generalizing n with
  | nil =>
    simp only [List.nil_append, List.length_cons] at hn ⊢
    obtain ⟨m, rfl⟩ : ∃ m, n = m + 1 := ⟨n - 1, by omega⟩
    rw [interpLoop.eq_def]
    split
    · simp_all
    · simp_all
    · rename_i heq
      simp only [List.cons.injEq, true_and] at heq
      subst heq
      exact ((h '%' (by simp)).1 rfl).elim
    · rename_i heq
      simp only [List.cons.injEq, true_and] at heq
      subst heq
      exact ((h '(' (by simp)).2 rfl).elim
    · rfl
    · rename_i heq
      obtain ⟨h1, -⟩ := List.cons.inj heq
      subst h1
      exfalso
      simp_all
  | cons c pre ih =>
    rw [List.mem_cons, not_or] at hp
    simp only [List.cons_append, List.length_cons] at hn ⊢
    obtain ⟨m, rfl⟩ : ∃ m, n = m + 1 := ⟨n - 1, by omega⟩
    rw [interpLoop_cons _ _ _ _ _ (fun e => hp.1 e.symm), ih m hp.2 (by omega)]
    rfl

/-- A value whose first percent sign starts a number format, e.g. "%14.9f", cannot be read. -/
theorem interpolate_format (map : String → Option (List Char)) (pre post : List Char) (hp : '%' ∉ pre)
    (h : ∀ c ∈ post.head?, c ≠ '%' ∧ c ≠ '(') :
    interpolate map (pre ++ '%' :: post) = .error .interpolationError :=
  interpLoop_lone map _ _ pre post hp h (Nat.le_refl _)

/-- References to other keys. -/
example : interpolate (fun k => if k = "dir" then some "out/%(run)s".toList else
    if k = "run" then some "7".toList else none) "%(Dir)s/traj".toList = .ok "out/7/traj".toList := by decide

theorem ofRaw_get (name : String) (raw : Dict String) (key : String) :
    (Section.ofRaw name raw).entries.get? key = (raw.get? key).map (fun v =>
      (interpolate (fun k => (raw.get? k).map String.toList) v.toList).map String.ofList) :=
  get?_map (fun v : String => (interpolate (fun k => (raw.get? k).map String.toList) v.toList).map
    String.ofList) raw key

/-- A string option is read as written if it contains no percent sign, and as intended if the percent signs
are doubled. Missing: formats written as documented, see `fmt_documented_false`. -/
theorem string_option_partial {F : Type} (c : Conv F) (name key : String) (raw : Dict String) (v w : String)
    (hk : raw.get? key = some w) (hw : w.toList = Spec.escape v.toList) :
    ({ key := key, keytype := .base .str } : InputOption F).parse c (Section.ofRaw name raw)
      = .ok (.base (.str v)) := by
  unfold InputOption.parse
  rw [ofRaw_get, hk]
  simp only [Option.map_some, hw, interpolate_escape]
  simp [InputOption.convert, Except.map, ok_bind, pure_eq_ok]

/-- A number format given as in the documentation raises `InterpolationSyntaxError`, whatever the other
options are. -/
theorem format_option_error {F : Type} (c : Conv F) (name key : String) (raw : Dict String) (pre post : List Char)
    (hk : raw.get? key = some (String.ofList (pre ++ '%' :: post))) (hp : '%' ∉ pre)
    (h : ∀ c ∈ post.head?, c ≠ '%' ∧ c ≠ '(') :
    ({ key := key, keytype := .base .str } : InputOption F).parse c (Section.ofRaw name raw)
      = .error .interpolationError := by
  unfold InputOption.parse
  rw [ofRaw_get, hk]
  simp only [Option.map_some, String.toList_ofList, interpolate_format _ pre post hp h]
  rfl

/-- Negation of C78: the documented default of `fmt` cannot be given in the input. -/
theorem fmt_documented_false : parseSection exConv
    (Section.ofRaw "trajectories" [("filename", "traj"), ("fmt", "%14.9f")]) trajectoriesOptions
      = .error .interpolationError := by decide

/-- With a doubled percent sign the format is read. -/
example : (parseSection exConv
    (Section.ofRaw "trajectories" [("filename", "traj"), ("fmt", "%%14.9f")]) trajectoriesOptions).toOption.map
      (fun d => d.get? "fmt") = some (some (.base (.str "%14.9f"))) := by decide

end Bdld
