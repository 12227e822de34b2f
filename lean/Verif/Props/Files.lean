import Verif.Model.Files
import Mathlib.Data.List.Perm.Subperm
import Mathlib.Data.List.Nodup
import Mathlib.Data.List.Range

/-
C68: existing files are never lost.
-/

namespace Bdld

variable {α : Type}

/-! ### Specification -/

namespace Spec

/-- `q` is a backup name of `p`: the file is in the same place and its name has the prefix `bck.N.`. -/
def IsBackup (p q : Path) : Prop := ∃ n, q = backupName p n

/-- Backups of backups. -/
inductive BackupChain : Path → Path → Prop
  | refl (p : Path) : BackupChain p p
  | step {p q r : Path} : BackupChain p q → IsBackup q r → BackupChain p r

/-- Names that are touched by an operation. -/
def FileOp.target : FileOp α → Path
  | .init p _ => p
  | .append p _ => p
  | .grid p _ _ => p
  | .overwrite p _ => p

/-- Lines are appended only to files that have been initialised before by the program, and files in more than two
dimensions do not have the name of such a file. -/
def OpsOk : List Path → List (FileOp α) → Prop
  | _, [] => True
  | A, .init p _ :: ops => OpsOk (p :: A) ops
  | A, .append p _ :: ops => p ∈ A ∧ OpsOk A ops
  | A, .grid p d _ :: ops => (d = 1 ∨ d = 2 ∨ p ∉ A) ∧ OpsOk A ops
  | A, .overwrite _ _ :: ops => OpsOk A ops

/-- No plot gets this name. -/
def NoPlot (ops : List (FileOp α)) (p : Path) : Prop := ∀ lines, FileOp.overwrite p lines ∉ ops

end Spec

open Spec FileSys

/-! ### The file system -/

theorem get_remove (fs : FileSys α) (p q : Path) : (fs.remove p).get q = if q = p then none else fs.get q := by
  unfold FileSys.remove FileSys.get
  induction fs with
  | nil => simp
  | cons f fs ih =>
    obtain ⟨r, c⟩ := f
    by_cases hr : r = p
    · subst hr
      rw [List.filter_cons_of_neg (by simp), ih]
      by_cases hq : q = r
      · simp [hq]
      · have : (q == r) = false := by simpa using hq
        rw [if_neg hq, if_neg hq, List.lookup_cons, this]
    · rw [List.filter_cons_of_pos (by simpa using hr), List.lookup_cons, List.lookup_cons, ih]
      by_cases hq : q = r
      · subst hq; simp [hr]
      · have : (q == r) = false := by simpa using hq
        simp [this]

theorem get_write (fs : FileSys α) (p q : Path) (c : List α) :
    (fs.write p c).get q = if q = p then some c else fs.get q := by
  have h := get_remove fs p q
  unfold FileSys.get FileSys.write at *
  rw [List.lookup_cons]
  by_cases hq : q = p
  · simp [hq]
  · have : (q == p) = false := by simpa using hq
    rw [this, if_neg hq]
    simpa [hq] using h

theorem get_append (fs : FileSys α) (p q : Path) (c : List α) :
    (fs.append p c).get q = if q = p then some ((fs.get p).getD [] ++ c) else fs.get q :=
  get_write fs p q _

theorem get_rename (fs : FileSys α) (p q r : Path) (c : List α) (h : fs.get p = some c) :
    (fs.rename p q).get r = if r = q then some c else if r = p then none else fs.get r := by
  unfold FileSys.rename
  rw [h]
  simp only [get_write, get_remove]

theorem exists_iff (fs : FileSys α) (p : Path) : fs.exists? p = true ↔ ∃ c, fs.get p = some c := by
  unfold FileSys.exists?
  rw [Option.isSome_iff_exists]

theorem mem_of_exists (fs : FileSys α) (p : Path) (h : fs.exists? p = true) : p ∈ fs.map Prod.fst := by
  obtain ⟨c, hc⟩ := (exists_iff fs p).1 h
  clear h
  simp only [FileSys.get] at hc
  induction fs with
  | nil => simp at hc
  | cons f fs ih =>
    rw [List.lookup_cons] at hc
    by_cases hq : p = f.1
    · simp [hq]
    · have : (p == f.1) = false := by simpa using hq
      rw [this] at hc
      exact List.mem_cons_of_mem _ (ih hc)

/-! ### Names of backups -/

/-- The name without the directory. -/
theorem joinPath_suffix (d : Path) : ∃ pre, ∀ g : Path, g.head? ≠ some '/' →
    joinPath d g = pre ++ g := by
  by_cases h : d = [] ∨ d.getLast? = some '/'
  · exact ⟨d, fun g hg => by rw [joinPath, if_neg hg, if_pos h]⟩
  · exact ⟨d ++ ['/'], fun g hg => by rw [joinPath, if_neg hg, if_neg h]; simp⟩

theorem backupName_injective (p : Path) : Function.Injective (backupName p) := by
  intro n m h
  obtain ⟨pre, hp⟩ := joinPath_suffix (splitPath p).1
  unfold backupName at h
  rw [hp _ (by simp), hp _ (by simp)] at h
  have h1 := List.append_cancel_left h
  simp only [List.append_assoc] at h1
  have h2 := List.append_cancel_left h1
  have h3 : Nat.toDigits 10 n ++ ('.' :: (splitPath p).2) = Nat.toDigits 10 m ++ ('.' :: (splitPath p).2) := h2
  have h4 := List.append_cancel_right h3
  rw [← Nat.ofDigitChars_ten_toDigits (n := n), h4, Nat.ofDigitChars_ten_toDigits]

private theorem takeWhile_name (f : Path) (h : '/' ∉ f) : f.reverse.takeWhile (· ≠ '/') = f.reverse := by
  have : ∀ l : Path, '/' ∉ l → l.takeWhile (· ≠ '/') = l := by
    intro l
    induction l with
    | nil => intro _; rfl
    | cons x l ih =>
      intro hl
      have hx : x ≠ '/' := fun he => hl (by rw [he]; exact List.mem_cons_self)
      rw [List.takeWhile_cons_of_pos (by simpa using hx), ih (fun hm => hl (List.mem_cons_of_mem _ hm))]
  exact this _ (by simpa using h)

/-- Backup of a file in the current directory. -/
theorem backupName_plain (p : Path) (h : '/' ∉ p) (n : Nat) :
    backupName p n = "bck.".toList ++ Nat.toDigits 10 n ++ '.' :: p := by
  have h1 := takeWhile_name p h
  have h2 : splitPath p = ([], p) := by
    unfold splitPath
    simp only [h1]
    simp
  rw [backupName, h2, joinPath, if_neg (by simp), if_pos (Or.inl rfl), List.nil_append]

/-- Backup of a file in another directory. -/
theorem backupName_dir (d f : Path) (hd : d ≠ []) (hl : d.getLast? ≠ some '/') (h : '/' ∉ f) (n : Nat) :
    backupName (d ++ '/' :: f) n = d ++ '/' :: ("bck.".toList ++ Nat.toDigits 10 n ++ '.' :: f) := by
  have h1 : (d ++ '/' :: f).reverse.takeWhile (· ≠ '/') = f.reverse := by
    rw [List.reverse_append, List.reverse_cons, List.append_assoc, List.takeWhile_append]
    rw [takeWhile_name f h, if_pos rfl]
    simp
  have h3 : (d ++ '/' :: f).take ((d ++ '/' :: f).length - f.length) = d ++ ['/'] := by
    have : (d ++ '/' :: f).length - f.length = (d ++ ['/']).length := by simp; omega
    rw [this, show d ++ '/' :: f = (d ++ ['/']) ++ f by simp]
    exact List.take_left
  obtain ⟨d', x, rfl⟩ : ∃ d' x, d = d' ++ [x] := ⟨d.dropLast, d.getLast hd, (List.dropLast_append_getLast hd).symm⟩
  have hx : x ≠ '/' := by simpa using hl
  have h2 : splitPath (d' ++ [x] ++ '/' :: f) = (d' ++ [x], f) := by
    unfold splitPath
    simp only [h1, List.reverse_reverse, h3]
    rw [if_neg]
    · simp [hx]
    · simp [hx]
  rw [backupName, h2, joinPath, if_neg (by simp), if_neg (by simp [hx])]

/-! ### The loop -/

theorem backupNumber_none (fs : FileSys α) (p : Path) (fuel n : Nat) (h : backupNumber fs p fuel n = none) :
    ∀ i < fuel, fs.exists? (backupName p (n + i)) = true := by
  induction fuel generalizing n with
  | zero => intro i hi; omega
  | succ fuel ih =>
    unfold backupNumber at h
    split at h
    · rename_i he
      intro i hi
      rcases i with _ | i
      · exact he
      · have := ih (n + 1) h i (by omega)
        rwa [show n + (i + 1) = n + 1 + i by omega]
    · cases h

/-- The number found is the first free one. -/
theorem backupNumber_some (fs : FileSys α) (p : Path) (fuel n m : Nat) (h : backupNumber fs p fuel n = some m) :
    n ≤ m ∧ fs.exists? (backupName p m) = false ∧ ∀ i, n ≤ i → i < m → fs.exists? (backupName p i) = true := by
  induction fuel generalizing n with
  | zero => cases h
  | succ fuel ih =>
    unfold backupNumber at h
    split at h
    · rename_i he
      obtain ⟨h1, h2, h3⟩ := ih (n + 1) h
      refine ⟨by omega, h2, fun i h4 h5 => ?_⟩
      rcases Nat.eq_or_lt_of_le h4 with h6 | h6
      · rw [← h6]; exact he
      · exact h3 i h6 h5
    · rename_i he
      cases h
      exact ⟨le_refl _, by simpa using he, fun i h1 h2 => by omega⟩

/-- The loop ends. -/
theorem backupNumber_total (fs : FileSys α) (p : Path) : ∃ m, backupNumber fs p (fs.length + 1) 0 = some m := by
  cases h : backupNumber fs p (fs.length + 1) 0 with
  | some m => exact ⟨m, rfl⟩
  | none =>
    exfalso
    have h1 := backupNumber_none fs p _ _ h
    have h2 : (List.range (fs.length + 1)).map (backupName p) ⊆ fs.map Prod.fst := by
      intro x hx
      obtain ⟨i, hi, rfl⟩ := List.mem_map.1 hx
      have := h1 i (List.mem_range.1 hi)
      rw [Nat.zero_add] at this
      exact mem_of_exists fs _ this
    have h3 := (List.Nodup.map (backupName_injective p) List.nodup_range).subperm h2
    have := h3.length_le
    simp only [List.length_map, List.length_range] at this
    omega

/-! ### Backups -/

/-- `backup_if_exists` always ends. An existing file gets the first free backup name and has no longer its own one;
all other files are unchanged. -/
theorem backup_spec (fs : FileSys α) (p : Path) : ∃ fs', backupIfExists fs p = some fs' ∧
    (fs.get p = none → fs' = fs) ∧
    ∀ c, fs.get p = some c → ∃ n, fs.get (backupName p n) = none ∧
      (∀ i < n, fs.exists? (backupName p i) = true) ∧
      ∀ q, fs'.get q = if q = backupName p n then some c else if q = p then none else fs.get q := by
  unfold backupIfExists
  by_cases he : fs.exists? p = true
  · rw [if_pos he]
    obtain ⟨m, hm⟩ := backupNumber_total fs p
    obtain ⟨_, h2, h3⟩ := backupNumber_some fs p _ _ _ hm
    rw [hm]
    obtain ⟨c, hc⟩ := (exists_iff fs p).1 he
    refine ⟨_, rfl, (fun h => by rw [hc] at h; cases h), ?_⟩
    intro c' hc'
    rw [hc] at hc'
    cases hc'
    refine ⟨m, ?_, fun i hi => h3 i (Nat.zero_le _) hi, fun q => get_rename fs p _ q c hc⟩
    unfold FileSys.exists? at h2
    simpa using h2
  · rw [if_neg he]
    refine ⟨fs, rfl, fun _ => rfl, ?_⟩
    intro c hc
    exact absurd ((exists_iff fs p).2 ⟨c, hc⟩) he

/-- Backup and overwriting: the new content is under the name, the old one under the first free backup name, and all
other files are unchanged. -/
theorem backup_write_spec (fs : FileSys α) (p : Path) (lines : List α) : ∃ fs',
    (backupIfExists fs p).map (fun fs => fs.write p lines) = some fs' ∧ fs'.get p = some lines ∧
    (fs.get p = none → ∀ q, q ≠ p → fs'.get q = fs.get q) ∧
    ∀ c, fs.get p = some c → ∃ n, fs.get (backupName p n) = none ∧ (∀ i < n, fs.exists? (backupName p i) = true) ∧
      fs'.get (backupName p n) = some c ∧ ∀ q, q ≠ p → q ≠ backupName p n → fs'.get q = fs.get q := by
  obtain ⟨fs', h1, h2, h3⟩ := backup_spec fs p
  rw [h1]
  refine ⟨fs'.write p lines, rfl, by rw [get_write, if_pos rfl], ?_, ?_⟩
  · intro h q hq
    rw [get_write, if_neg hq, h2 h]
  · intro c hc
    obtain ⟨n, e1, e2, e3⟩ := h3 c hc
    have hne : backupName p n ≠ p := by
      intro h
      rw [h, hc] at e1
      cases e1
    exact ⟨n, e1, e2, by rw [get_write, if_neg hne, e3, if_pos rfl],
      fun q h1 h2 => by rw [get_write, if_neg h1, e3, if_neg h2, if_neg h1]⟩

/-- One operation: an existing file which is not the target is unchanged; the content of the target of `init` and
`grid` is kept under a new backup name. -/
theorem exec_spec (fs : FileSys α) (op : FileOp α) : ∃ fs', op.exec fs = some fs' ∧
    (∀ q c, fs.get q = some c → q ≠ Spec.FileOp.target op → fs'.get q = some c) ∧
    (∀ c, fs.get (Spec.FileOp.target op) = some c → (∀ p rows, op ≠ .append p rows) →
      (∀ p lines, op ≠ .overwrite p lines) → ∃ n, fs.get (backupName (Spec.FileOp.target op) n) = none ∧
        fs'.get (backupName (Spec.FileOp.target op) n) = some c) := by
  cases op with
  | append p rows =>
    refine ⟨_, rfl, ?_, fun c _ h => absurd rfl (h p rows)⟩
    intro q c hq hne
    have hne' : q ≠ p := hne
    rw [get_append, if_neg hne', hq]
  | overwrite p lines =>
    refine ⟨_, rfl, ?_, fun c _ _ h => absurd rfl (h p lines)⟩
    intro q c hq hne
    have hne' : q ≠ p := hne
    rw [get_write, if_neg hne', hq]
  | init p header =>
    obtain ⟨fs', h1, h2, h3, h4⟩ := backup_write_spec fs p header
    refine ⟨fs', h1, ?_, ?_⟩
    · intro q c hq hne
      cases hp : fs.get p with
      | none => rw [h3 hp q hne, hq]
      | some x =>
        obtain ⟨n, e1, _, _, e4⟩ := h4 x hp
        rw [e4 q hne (by rintro rfl; rw [e1] at hq; cases hq), hq]
    · intro c hc _ _
      obtain ⟨n, e1, _, e3, _⟩ := h4 c hc
      exact ⟨n, e1, e3⟩
  | grid p d lines =>
    by_cases hd : d = 1 ∨ d = 2
    · simp only [FileOp.exec, if_pos hd]
      obtain ⟨fs', h1, h2, h3, h4⟩ := backup_write_spec fs p lines
      refine ⟨fs', h1, ?_, ?_⟩
      · intro q c hq hne
        cases hp : fs.get p with
        | none => rw [h3 hp q hne, hq]
        | some x =>
          obtain ⟨n, e1, _, _, e4⟩ := h4 x hp
          rw [e4 q hne (by rintro rfl; rw [e1] at hq; cases hq), hq]
      · intro c hc _ _
        obtain ⟨n, e1, _, e3, _⟩ := h4 c hc
        exact ⟨n, e1, e3⟩
    · simp only [FileOp.exec, if_neg hd]
      obtain ⟨fs', h1, h2, h3⟩ := backup_spec fs p
      rw [h1]
      refine ⟨fs', rfl, ?_, ?_⟩
      · intro q c hq hne
        cases hp : fs.get p with
        | none => rw [h2 hp, hq]
        | some x =>
          obtain ⟨n, e1, _, e3⟩ := h3 x hp
          have hne' : q ≠ p := hne
          rw [e3, if_neg (by rintro rfl; rw [e1] at hq; cases hq), if_neg hne', hq]
      · intro c hc _ _
        obtain ⟨n, e1, _, e3⟩ := h3 c hc
        exact ⟨n, e1, (e3 _).trans (if_pos rfl)⟩

/-! ### Sequences -/

/-- All operations succeed. -/
theorem execOps_total (fs : FileSys α) (ops : List (FileOp α)) : ∃ fs', execOps fs ops = some fs' := by
  induction ops generalizing fs with
  | nil => exact ⟨fs, rfl⟩
  | cons op ops ih =>
    obtain ⟨fs', h, _⟩ := exec_spec fs op
    obtain ⟨z, hz⟩ := ih fs'
    exact ⟨z, by rw [execOps, h]; exact hz⟩

/-- After an operation that creates its target, the target exists. -/
theorem exec_creates (fs fs' : FileSys α) (op : FileOp α) (h : op.exec fs = some fs')
    (hop : ∀ p d lines, op = .grid p d lines → d = 1 ∨ d = 2) :
    ∃ c, fs'.get (Spec.FileOp.target op) = some c := by
  cases op with
  | append p rows =>
    cases h
    exact ⟨_, (get_append fs p p rows).trans (if_pos rfl)⟩
  | overwrite p lines =>
    cases h
    exact ⟨_, (get_write fs p p lines).trans (if_pos rfl)⟩
  | init p header =>
    obtain ⟨z, h1, h2, _⟩ := backup_write_spec fs p header
    have := Option.some.inj (h1.symm.trans h)
    subst this
    exact ⟨_, h2⟩
  | grid p d lines =>
    have hd := hop p d lines rfl
    simp only [FileOp.exec, if_pos hd] at h
    obtain ⟨z, h1, h2, _⟩ := backup_write_spec fs p lines
    have := Option.some.inj (h1.symm.trans h)
    subst this
    exact ⟨_, h2⟩

/-- Invariant of a sequence: the content is under a name that does not belong to the program. -/
private theorem execOps_keep (ops : List (FileOp α)) (A : List Path) (fs fs' : FileSys α)
    (hA : ∀ a ∈ A, ∃ c, fs.get a = some c) (hok : OpsOk A ops) (h : execOps fs ops = some fs') (p q : Path)
    (c : List α) (hq : fs.get q = some c) (hqA : q ∉ A) (hpq : BackupChain p q)
    (hplot : ∀ r, BackupChain p r → NoPlot ops r) : ∃ r, BackupChain p r ∧ fs'.get r = some c := by
  induction ops generalizing A fs q with
  | nil => cases h; exact ⟨q, hpq, hq⟩
  | cons op ops ih =>
    obtain ⟨z, h1, h2, h3⟩ := exec_spec fs op
    rw [execOps, h1] at h
    have h' : execOps z ops = some fs' := h
    have hkeep : ∀ a ∈ A, a ≠ Spec.FileOp.target op → ∃ c, z.get a = some c := by
      intro a ha hne
      obtain ⟨x, hx⟩ := hA a ha
      exact ⟨x, h2 a x hx hne⟩
    have hplot' : ∀ r, BackupChain p r → NoPlot ops r := fun r hr lines hm => hplot r hr lines (List.mem_cons_of_mem _ hm)
    have hmove : (∀ p rows, op ≠ .append p rows) → (∀ p lines, op ≠ .overwrite p lines) → ∃ q', z.get q' = some c ∧ BackupChain p q' ∧ q' ∉ A ∧
        q' ≠ Spec.FileOp.target op := by
      intro hop hop'
      by_cases hqt : q = Spec.FileOp.target op
      · obtain ⟨n, e1, e2⟩ := h3 c (by rw [← hqt]; exact hq) hop hop'
        refine ⟨_, e2, hpq.step ⟨n, by rw [hqt]⟩, ?_, ?_⟩
        · intro hm
          obtain ⟨x, hx⟩ := hA _ hm
          rw [e1] at hx
          cases hx
        · intro he
          rw [he, ← hqt, hq] at e1
          cases e1
      · exact ⟨q, h2 q c hq hqt, hpq, hqA, hqt⟩
    cases op with
    | append a rows =>
      obtain ⟨hmem, hok⟩ := hok
      have hne : q ≠ a := fun he => hqA (he ▸ hmem)
      refine ih A z ?_ hok h' q (h2 q c hq hne) hqA hpq hplot'
      intro b hb
      by_cases hba : b = a
      · obtain ⟨x, hx⟩ := exec_creates fs z _ h1 (by intro _ _ _ he; cases he)
        exact ⟨x, by rw [hba]; exact hx⟩
      · exact hkeep b hb hba
    | overwrite a lines =>
      have hne : q ≠ a := fun he => hplot q hpq lines (he ▸ List.mem_cons_self)
      refine ih A z ?_ hok h' q (h2 q c hq hne) hqA hpq hplot'
      intro b hb
      by_cases hba : b = a
      · obtain ⟨x, hx⟩ := exec_creates fs z _ h1 (by intro _ _ _ he; cases he)
        exact ⟨x, by rw [hba]; exact hx⟩
      · exact hkeep b hb hba
    | init a header =>
      obtain ⟨q', e1, e2, e3, e4⟩ := hmove (by intro _ _ he; cases he) (by intro _ _ he; cases he)
      have hex := exec_creates fs z _ h1 (by intro _ _ _ he; cases he)
      refine ih (a :: A) z ?_ hok h' q' e1 ?_ e2 hplot'
      · intro b hb
        by_cases hba : b = a
        · rw [hba]; exact hex
        · rcases List.mem_cons.1 hb with hb | hb
          · exact absurd hb hba
          · exact hkeep b hb hba
      · intro hm
        rcases List.mem_cons.1 hm with hm | hm
        · exact e4 hm
        · exact e3 hm
    | grid a d lines =>
      obtain ⟨hd, hok⟩ := hok
      obtain ⟨q', e1, e2, e3, _⟩ := hmove (by intro _ _ he; cases he) (by intro _ _ he; cases he)
      refine ih A z ?_ hok h' q' e1 e3 e2 hplot'
      intro b hb
      by_cases hba : b = a
      · rcases hd with hd | hd | hd
        · rw [hba]; exact exec_creates fs z _ h1 (by intro _ _ _ he; cases he; exact Or.inl hd)
        · rw [hba]; exact exec_creates fs z _ h1 (by intro _ _ _ he; cases he; exact Or.inr hd)
        · exact absurd (hba ▸ hb) hd
      · exact hkeep b hb hba

/-- Everything that was in a file before the program starts is, after any sequence of operations, still in a file
whose name is the old one or a (repeated) backup name of it, unless such a name is that of a plot. -/
theorem files_kept (ops : List (FileOp α)) (hok : OpsOk [] ops) (fs : FileSys α) : ∃ fs', execOps fs ops = some fs' ∧
    ∀ p c, fs.get p = some c → (∀ q, BackupChain p q → NoPlot ops q) → ∃ q, BackupChain p q ∧ fs'.get q = some c := by
  obtain ⟨fs', h⟩ := execOps_total fs ops
  exact ⟨fs', h, fun p c hc => execOps_keep ops [] fs fs' (by simp) hok h p p c hc (by simp) (.refl p)⟩

/-- Files whose name is not used by the program are not touched. -/
theorem files_untouched (ops : List (FileOp α)) (fs fs' : FileSys α) (h : execOps fs ops = some fs') (p : Path)
    (c : List α) (hp : ∀ op ∈ ops, p ≠ Spec.FileOp.target op) (hc : fs.get p = some c) : fs'.get p = some c := by
  induction ops generalizing fs with
  | nil => cases h; exact hc
  | cons op ops ih =>
    obtain ⟨z, h1, h2, _⟩ := exec_spec fs op
    rw [execOps, h1] at h
    exact ih z h (fun o ho => hp o (List.mem_cons_of_mem _ ho)) (h2 p c hc (hp op List.mem_cons_self))

/-- The order of the program: the files of birth-death statistics, trajectories, delta F and particle distribution are
initialised when the actions are set up; afterwards lines are appended to them and grids are written to files with
other names. -/
theorem opsOk_program (inits : List (Path × List α)) (rest : List (FileOp α))
    (h1 : ∀ p h, FileOp.init p h ∉ rest)
    (h2 : ∀ p rows, FileOp.append p rows ∈ rest → p ∈ inits.map Prod.fst)
    (h3 : ∀ p d lines, FileOp.grid p d lines ∈ rest → d = 1 ∨ d = 2 ∨ p ∉ inits.map Prod.fst) :
    OpsOk [] (inits.map (fun f => FileOp.init f.1 f.2) ++ rest) := by
  have hrest : ∀ (A : List Path) (l : List (FileOp α)), (∀ p h, FileOp.init p h ∉ l) →
      (∀ p rows, FileOp.append p rows ∈ l → p ∈ A) →
      (∀ p d lines, FileOp.grid p d lines ∈ l → d = 1 ∨ d = 2 ∨ p ∉ A) → OpsOk A l := by
    intro A l
    induction l with
    | nil => intros; trivial
    | cons op l ih =>
      intro k1 k2 k3
      have := ih (fun p h hm => k1 p h (List.mem_cons_of_mem _ hm))
        (fun p r hm => k2 p r (List.mem_cons_of_mem _ hm)) (fun p d r hm => k3 p d r (List.mem_cons_of_mem _ hm))
      cases op with
      | init p h => exact absurd List.mem_cons_self (k1 p h)
      | append p rows => exact ⟨k2 p rows List.mem_cons_self, this⟩
      | grid p d lines => exact ⟨k3 p d lines List.mem_cons_self, this⟩
      | overwrite p lines => exact this
  have hinit : ∀ (l : List (Path × List α)) (A : List Path),
      (∀ p, p ∈ A ∨ p ∈ l.map Prod.fst ↔ p ∈ inits.map Prod.fst) →
      OpsOk A (l.map (fun f => FileOp.init f.1 f.2) ++ rest) := by
    intro l
    induction l with
    | nil =>
      intro A hA
      simp only [List.map_nil, List.not_mem_nil, or_false] at hA
      refine hrest A rest h1 (fun p r hm => (hA p).2 (h2 p r hm)) (fun p d r hm => ?_)
      rw [hA p]
      exact h3 p d r hm
    | cons f l ih =>
      intro A hA
      refine ih (f.1 :: A) (fun p => ?_)
      rw [← hA p]
      simp only [List.mem_cons, List.map_cons]
      tauto
  exact hinit inits [] (fun p => by simp)

/-! ### Contents -/

/-- Lines appended to a file. -/
def Spec.appended (p : Path) (ops : List (FileOp α)) : List α :=
  ops.flatMap (fun op => match op with
    | .append q rows => if q = p then rows else []
    | _ => [])

/-- A file keeps its lines and gets the appended ones in their order, whatever happens to other files. -/
theorem files_appended (ops : List (FileOp α)) (fs fs' : FileSys α) (h : execOps fs ops = some fs') (p : Path)
    (c : List α) (hc : fs.get p = some c)
    (hops : ∀ op ∈ ops, Spec.FileOp.target op = p → ∃ rows, op = .append p rows) :
    fs'.get p = some (c ++ Spec.appended p ops) := by
  induction ops generalizing fs c with
  | nil => cases h; simpa [Spec.appended] using hc
  | cons op ops ih =>
    obtain ⟨z, h1, h2, _⟩ := exec_spec fs op
    rw [execOps, h1] at h
    have hops' : ∀ o ∈ ops, Spec.FileOp.target o = p → ∃ rows, o = .append p rows :=
      fun o ho => hops o (List.mem_cons_of_mem _ ho)
    by_cases ht : Spec.FileOp.target op = p
    · obtain ⟨rows, rfl⟩ := hops op List.mem_cons_self ht
      cases h1
      have hz : (fs.append p rows).get p = some (c ++ rows) := by
        rw [get_append, if_pos rfl, hc]; rfl
      rw [ih _ h _ hz hops']
      simp [Spec.appended]
    · rw [ih z h c (h2 p c hc (fun he => ht he.symm)) hops']
      have : Spec.appended p (op :: ops) = Spec.appended p ops := by
        cases op with
        | append q rows =>
          have : q ≠ p := ht
          simp [Spec.appended, this]
        | init q x => simp [Spec.appended]
        | grid q d x => simp [Spec.appended]
        | overwrite q x => simp [Spec.appended]
      rw [this]

/-- A file that is initialised once by the program and only appended to afterwards has in the end the header followed
by all rows in the order of writing, whatever was in it before the program. -/
theorem files_series (before ops : List (FileOp α)) (p : Path) (header : List α) (fs fs' : FileSys α)
    (h : execOps fs (before ++ .init p header :: ops) = some fs')
    (hops : ∀ op ∈ ops, Spec.FileOp.target op = p → ∃ rows, op = .append p rows) :
    fs'.get p = some (header ++ Spec.appended p ops) := by
  induction before generalizing fs with
  | nil =>
    obtain ⟨z, k1, k2, _⟩ := backup_write_spec fs p header
    have h1 : (FileOp.init p header).exec fs = some z := k1
    rw [List.nil_append, execOps, h1] at h
    exact files_appended ops z fs' h p header k2 hops
  | cons op before ih =>
    obtain ⟨z, h1, _, _⟩ := exec_spec fs op
    rw [List.cons_append, execOps, h1] at h
    exact ih z h

/-- The file of a grid in one or two dimensions has in the end the lines of the last write. -/
theorem files_grid (before ops : List (FileOp α)) (p : Path) (d : Nat) (hd : d = 1 ∨ d = 2) (lines : List α)
    (fs fs' : FileSys α) (h : execOps fs (before ++ .grid p d lines :: ops) = some fs')
    (hops : ∀ op ∈ ops, Spec.FileOp.target op ≠ p) : fs'.get p = some lines := by
  induction before generalizing fs with
  | nil =>
    obtain ⟨z, k1, k2, _⟩ := backup_write_spec fs p lines
    have h1 : (FileOp.grid p d lines).exec fs = some z := by
      simp only [FileOp.exec, if_pos hd]
      exact k1
    rw [List.nil_append, execOps, h1] at h
    exact files_untouched ops z fs' h p lines (fun op hop he => hops op hop he.symm) k2
  | cons op before ih =>
    obtain ⟨z, h1, _, _⟩ := exec_spec fs op
    rw [List.cons_append, execOps, h1] at h
    exact ih z h

theorem backup_only (fs fs' : FileSys α) (p : Path) (h : backupIfExists fs p = some fs') (q : Path) (c : List α)
    (hq : fs'.get q = some c) : (∃ c', fs.get q = some c') ∨ IsBackup p q := by
  obtain ⟨z, h1, h2, h3⟩ := backup_spec fs p
  rw [h1] at h
  cases h
  rcases hp : fs.get p with _ | c'
  · rw [h2 hp] at hq
    exact .inl ⟨c, hq⟩
  · obtain ⟨n, _, _, e⟩ := h3 c' hp
    rw [e] at hq
    by_cases hb : q = backupName p n
    · exact .inr ⟨n, hb⟩
    · rw [if_neg hb] at hq
      split at hq
      · cases hq
      · exact .inl ⟨c, hq⟩

/-- An operation creates at most its target and a backup of it. -/
theorem exec_only (fs fs' : FileSys α) (op : FileOp α) (h : op.exec fs = some fs') (q : Path) (c : List α)
    (hq : fs'.get q = some c) : (∃ c', fs.get q = some c') ∨ q = Spec.FileOp.target op ∨ IsBackup (Spec.FileOp.target op) q := by
  have hw : ∀ (z : FileSys α) (p : Path) (l : List α), (z.write p l).get q = some c → q = p ∨ z.get q = some c := by
    intro z p l hz
    rw [get_write] at hz
    by_cases he : q = p
    · exact .inl he
    · rw [if_neg he] at hz
      exact .inr hz
  have hb : ∀ (z : FileSys α) (p : Path), backupIfExists fs p = some z → z.get q = some c →
      (∃ c', fs.get q = some c') ∨ q = p ∨ IsBackup p q := by
    intro z p hz hc
    rcases backup_only fs z p hz q c hc with h | h
    · exact .inl h
    · exact .inr (.inr h)
  cases op with
  | append p rows =>
    cases h
    rcases hw fs p _ hq with h | h
    · exact .inr (.inl h)
    · exact .inl ⟨c, h⟩
  | overwrite p rows =>
    cases h
    rcases hw fs p _ hq with h | h
    · exact .inr (.inl h)
    · exact .inl ⟨c, h⟩
  | init p header =>
    obtain ⟨z, h1, _⟩ := backup_spec fs p
    simp only [FileOp.exec, h1, Option.map_some, Option.some.injEq] at h
    rw [← h] at hq
    rcases hw z p _ hq with h | h
    · exact .inr (.inl h)
    · exact hb z p h1 h
  | grid p d lines =>
    obtain ⟨z, h1, _⟩ := backup_spec fs p
    simp only [FileOp.exec, h1, Option.map_some, Option.some.injEq] at h
    rw [← h] at hq
    split at hq
    · rcases hw z p _ hq with h | h
      · exact .inr (.inl h)
      · exact hb z p h1 h
    · exact hb z p h1 hq

/-- In the end there are the files from before, the files of the program and backups of files with these names. -/
theorem files_only (ops : List (FileOp α)) (fs fs' : FileSys α) (h : execOps fs ops = some fs') (q : Path) (c : List α)
    (hq : fs'.get q = some c) : (∃ c', fs.get q = some c') ∨
      ∃ op ∈ ops, q = Spec.FileOp.target op ∨ IsBackup (Spec.FileOp.target op) q := by
  induction ops generalizing fs with
  | nil => cases h; exact .inl ⟨c, hq⟩
  | cons op ops ih =>
    obtain ⟨z, h1, _, _⟩ := exec_spec fs op
    rw [execOps, h1] at h
    rcases ih z h with ⟨c', hc'⟩ | ⟨op', ho, hop⟩
    · rcases exec_only fs z op h1 q c' hc' with h | h
      · exact .inl h
      · exact .inr ⟨op, List.mem_cons_self, h⟩
    · exact .inr ⟨op', List.mem_cons_of_mem _ ho, hop⟩

/-- The file of a plot has in the end the last one. -/
theorem files_plot (before ops : List (FileOp α)) (p : Path) (lines : List α)
    (fs fs' : FileSys α) (h : execOps fs (before ++ .overwrite p lines :: ops) = some fs')
    (hops : ∀ op ∈ ops, Spec.FileOp.target op ≠ p) : fs'.get p = some lines := by
  induction before generalizing fs with
  | nil =>
    have h1 : (FileOp.overwrite p lines).exec fs = some (fs.write p lines) := rfl
    rw [List.nil_append, execOps, h1] at h
    exact files_untouched ops _ fs' h p lines (fun op hop he => hops op hop he.symm) ((get_write fs p p lines).trans (if_pos rfl))
  | cons op before ih =>
    obtain ⟨z, h1, _, _⟩ := exec_spec fs op
    rw [List.cons_append, execOps, h1] at h
    exact ih z h

/-- Plots replace existing files: their content is lost. -/
theorem files_plot_false : ∃ fs', execOps [("p".toList, [1])] [.overwrite "p".toList [20]] = some fs' ∧
    ∀ q, fs'.get q ≠ some [1] := by
  refine ⟨_, rfl, fun q hq => ?_⟩
  rw [get_write] at hq
  by_cases h : q = "p".toList
  · rw [if_pos h] at hq; cases hq
  · rw [if_neg h] at hq
    unfold FileSys.get at hq
    rw [List.lookup_cons, beq_eq_false_iff_ne.2 h] at hq
    cases hq

/-! ### Examples -/

/-- An existing file and an existing backup: the next number is taken, and the histogram written twice leaves the
first version under a backup name. -/
example : (execOps [("out/t".toList, [1, 2]), ("out/bck.0.t".toList, [3])]
    [.init "out/t".toList [10], .append "out/t".toList [11], .grid "h".toList 1 [20], .append "out/t".toList [12],
      .grid "h".toList 1 [21]]).map (fun fs => ["out/t", "out/bck.0.t", "out/bck.1.t", "h", "bck.0.h"].map
        (fun p => fs.get p.toList)) =
    some [some [10, 11, 12], some [3], some [1, 2], some [21], some [20]] := by decide

example : OpsOk [] [FileOp.init "out/t".toList [10], .append "out/t".toList [11], .grid "h".toList 1 [20]] := by
  refine ⟨by decide, by decide, trivial⟩

example : backupName "/t".toList 12 = "/bck.12.t".toList := by decide
example : backupName "a//t".toList 3 = "a/bck.3.t".toList := by decide

/-- A grid in three dimensions is never written; only the old file is moved. -/
theorem files_grid_false : ∃ fs', execOps [("h".toList, [1])] [.grid "h".toList 3 [20]] = some fs' ∧
    fs'.get "h".toList = none ∧ fs'.get "bck.0.h".toList = some [1] := ⟨_, rfl, by decide, by decide⟩

end Bdld
