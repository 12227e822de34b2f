import Verif.Model.Heap
import Verif.Lemmas.Langevin

/-
Helper lemmas for `Props/Heap.lean`: every statement of the loop bodies changes only the object it works on.
-/

namespace Bdld

section
variable {F : Type} {d : Nat}

/-- The three array references of an object. -/
def HObj.ref (x : HObj F) : Fin 3 → Nat
  | 0 => x.pos
  | 1 => x.mom
  | 2 => x.forces

/-- The particle that an object represents. -/
def Mem.view (m : Mem F d) (o : Nat) : LdParticle F d where
  pos := m.arr (m.obj o).pos
  mom := m.arr (m.obj o).mom
  mass := (m.obj o).mass
  energy := (m.obj o).energy
  forces := m.arr (m.obj o).forces
  c2 := (m.obj o).c2

/-- The particle list as list of values. -/
def Mem.views (m : Mem F d) : List (LdParticle F d) := m.list.map m.view

/-- The three arrays of an object exist and are different. -/
structure Mem.Own (m : Mem F d) (o : Nat) : Prop where
  lt : ∀ i, (m.obj o).ref i < m.nArr
  inj : ∀ i j, (m.obj o).ref i = (m.obj o).ref j → i = j

/-- `m'` results from `m` by working on object `o`. -/
structure Upd (m : Mem F d) (o : Nat) (m' : Mem F d) : Prop where
  list : m'.list = m.list
  nObj : m'.nObj = m.nObj
  nArr : m.nArr ≤ m'.nArr
  obj : ∀ o', o' ≠ o → m'.obj o' = m.obj o'
  frame : ∀ a, a < m.nArr → (∀ i, a ≠ (m.obj o).ref i) → m'.arr a = m.arr a
  ref : ∀ i, (m'.obj o).ref i = (m.obj o).ref i ∨ m.nArr ≤ (m'.obj o).ref i
  own : m'.Own o

theorem Upd.refl {m : Mem F d} {o : Nat} (h : m.Own o) : Upd m o m :=
  ⟨rfl, rfl, le_refl _, fun _ _ => rfl, fun _ _ _ => rfl, fun _ => Or.inl rfl, h⟩

theorem Upd.trans {m m' m'' : Mem F d} {o : Nat} (h : Upd m o m') (h' : Upd m' o m'') : Upd m o m'' where
  list := h'.list.trans h.list
  nObj := h'.nObj.trans h.nObj
  nArr := le_trans h.nArr h'.nArr
  obj := fun o' ho => (h'.obj o' ho).trans (h.obj o' ho)
  frame := fun a ha hi => by
    rw [h'.frame a (lt_of_lt_of_le ha h.nArr) ?_, h.frame a ha hi]
    intro i e
    rcases h.ref i with h1 | h1
    · exact hi i (e.trans h1)
    · omega
  ref := fun i => by
    rcases h'.ref i with h1 | h1
    · rw [h1]; exact h.ref i
    · right; exact le_trans h.nArr h1
  own := h'.own

theorem upd_write {m : Mem F d} {o : Nat} (h : m.Own o) (i : Fin 3) (v : Fin d → F) :
    Upd m o (m.write ((m.obj o).ref i) v) :=
  ⟨rfl, rfl, le_refl _, fun _ _ => rfl, fun _ _ hi => Function.update_of_ne (hi i) _ _, fun _ => Or.inl rfl,
    ⟨h.lt, h.inj⟩⟩

theorem view_write_pos {m : Mem F d} {o : Nat} (h : m.Own o) (v : Fin d → F) :
    (m.write (m.obj o).pos v).view o = { m.view o with pos := v } := by
  have h1 : (m.obj o).mom ≠ (m.obj o).pos := fun e => absurd (h.inj 1 0 e) (by decide)
  have h2 : (m.obj o).forces ≠ (m.obj o).pos := fun e => absurd (h.inj 2 0 e) (by decide)
  unfold Mem.view Mem.write
  simp only [Function.update_self, Function.update_of_ne h1, Function.update_of_ne h2]

theorem view_write_mom {m : Mem F d} {o : Nat} (h : m.Own o) (v : Fin d → F) :
    (m.write (m.obj o).mom v).view o = { m.view o with mom := v } := by
  have h1 : (m.obj o).pos ≠ (m.obj o).mom := fun e => absurd (h.inj 0 1 e) (by decide)
  have h2 : (m.obj o).forces ≠ (m.obj o).mom := fun e => absurd (h.inj 2 1 e) (by decide)
  unfold Mem.view Mem.write
  simp only [Function.update_self, Function.update_of_ne h1, Function.update_of_ne h2]

theorem fin3 (P : Fin 3 → Prop) (h0 : P 0) (h1 : P 1) (h2 : P 2) : ∀ i, P i
  | 0 => h0
  | 1 => h1
  | 2 => h2

theorem upd_newMom {m : Mem F d} {o : Nat} (h : m.Own o) (v : Fin d → F) : Upd m o (m.newMom o v) := by
  have hobj : (m.newMom o v).obj o = { m.obj o with mom := m.nArr } := by
    unfold Mem.newMom Mem.setObj; simp
  have l0 := h.lt 0
  have l2 := h.lt 2
  have n02 : (m.obj o).pos ≠ (m.obj o).forces := fun e => absurd (h.inj 0 2 e) (by decide)
  simp only [HObj.ref] at l0 l2
  refine ⟨rfl, rfl, Nat.le_succ _, ?_, ?_, ?_, ⟨?_, ?_⟩⟩
  · intro o' ho
    unfold Mem.newMom Mem.setObj Mem.alloc
    simp only [Function.update_of_ne ho]
  · intro a ha _
    unfold Mem.newMom Mem.setObj Mem.alloc
    simp only [Function.update_of_ne (Nat.ne_of_lt ha)]
  · rw [hobj]
    exact fin3 _ (Or.inl rfl) (Or.inr (le_refl _)) (Or.inl rfl)
  · rw [hobj]
    show ∀ i, _ < m.nArr + 1
    exact fin3 _ (by simp only [HObj.ref]; omega) (by simp only [HObj.ref]; omega) (by simp only [HObj.ref]; omega)
  · rw [hobj]
    exact fin3 _ (fin3 _ (fun _ => rfl) (fun e => by simp only [HObj.ref] at e; omega)
      (fun e => by simp only [HObj.ref] at e; omega))
      (fin3 _ (fun e => by simp only [HObj.ref] at e; omega) (fun _ => rfl)
      (fun e => by simp only [HObj.ref] at e; omega))
      (fin3 _ (fun e => by simp only [HObj.ref] at e; omega) (fun e => by simp only [HObj.ref] at e; omega)
      (fun _ => rfl))

theorem view_newMom {m : Mem F d} {o : Nat} (h : m.Own o) (v : Fin d → F) :
    (m.newMom o v).view o = { m.view o with mom := v } := by
  have l0 := h.lt 0
  have l2 := h.lt 2
  simp only [HObj.ref] at l0 l2
  unfold Mem.view Mem.newMom Mem.setObj Mem.alloc
  simp only [Function.update_self, Function.update_of_ne (Nat.ne_of_lt l0), Function.update_of_ne (Nat.ne_of_lt l2)]

theorem upd_newForces {m : Mem F d} {o : Nat} (h : m.Own o) (ef : F × (Fin d → F)) : Upd m o (m.newForces o ef) := by
  have hobj : (m.newForces o ef).obj o = { m.obj o with
      forces := m.nArr
      energy := ef.1 } := by
    unfold Mem.newForces Mem.setObj; simp
  have l0 := h.lt 0
  have l1 := h.lt 1
  have n01 : (m.obj o).pos ≠ (m.obj o).mom := fun e => absurd (h.inj 0 1 e) (by decide)
  simp only [HObj.ref] at l0 l1
  refine ⟨rfl, rfl, Nat.le_succ _, ?_, ?_, ?_, ⟨?_, ?_⟩⟩
  · intro o' ho
    unfold Mem.newForces Mem.setObj Mem.alloc
    simp only [Function.update_of_ne ho]
  · intro a ha _
    unfold Mem.newForces Mem.setObj Mem.alloc
    simp only [Function.update_of_ne (Nat.ne_of_lt ha)]
  · rw [hobj]
    exact fin3 _ (Or.inl rfl) (Or.inl rfl) (Or.inr (le_refl _))
  · rw [hobj]
    show ∀ i, _ < m.nArr + 1
    exact fin3 _ (by simp only [HObj.ref]; omega) (by simp only [HObj.ref]; omega) (by simp only [HObj.ref]; omega)
  · rw [hobj]
    exact fin3 _ (fin3 _ (fun _ => rfl) (fun e => by simp only [HObj.ref] at e; omega)
      (fun e => by simp only [HObj.ref] at e; omega))
      (fin3 _ (fun e => by simp only [HObj.ref] at e; omega) (fun _ => rfl)
      (fun e => by simp only [HObj.ref] at e; omega))
      (fin3 _ (fun e => by simp only [HObj.ref] at e; omega) (fun e => by simp only [HObj.ref] at e; omega)
      (fun _ => rfl))

theorem view_newForces {m : Mem F d} {o : Nat} (h : m.Own o) (ef : F × (Fin d → F)) :
    (m.newForces o ef).view o = { m.view o with
      energy := ef.1
      forces := ef.2 } := by
  have l0 := h.lt 0
  have l1 := h.lt 1
  simp only [HObj.ref] at l0 l1
  unfold Mem.view Mem.newForces Mem.setObj Mem.alloc
  simp only [Function.update_self, Function.update_of_ne (Nat.ne_of_lt l0), Function.update_of_ne (Nat.ne_of_lt l1)]

/-- A heap computation working on object `o` does what the value computation does. -/
def Refines (o : Nat) (f : Mem F d → Except PyErr (Mem F d))
    (g : LdParticle F d → Except PyErr (LdParticle F d)) : Prop :=
  ∀ m : Mem F d, m.Own o →
    match g (m.view o) with
    | .error e => f m = .error e
    | .ok p => ∃ m', f m = .ok m' ∧ m'.view o = p ∧ Upd m o m'

theorem Refines.bind {o : Nat} {f f' : Mem F d → Except PyErr (Mem F d)}
    {g g' : LdParticle F d → Except PyErr (LdParticle F d)} (h : Refines o f g) (h' : Refines o f' g') :
    Refines o (fun m => f m >>= f') (fun p => g p >>= g') := by
  intro m hm
  have h1 := h m hm
  simp only
  cases hg : g (m.view o) with
  | error e =>
    rw [hg] at h1
    simp only at h1
    rw [h1, error_bind, error_bind]
  | ok p =>
    rw [hg] at h1
    obtain ⟨m1, e1, e2, e3⟩ := h1
    have h2 := h' m1 e3.own
    rw [e1, ok_bind, ok_bind]
    rw [e2] at h2
    cases hg' : g' p with
    | error e => rw [hg'] at h2; exact h2
    | ok q =>
      rw [hg'] at h2
      obtain ⟨m2, f1, f2, f3⟩ := h2
      exact ⟨m2, f1, f2, e3.trans f3⟩

theorem Refines.pure {o : Nat} {f : Mem F d → Mem F d} {g : LdParticle F d → LdParticle F d}
    (h : ∀ m : Mem F d, m.Own o → (f m).view o = g (m.view o) ∧ Upd m o (f m)) :
    Refines o (fun m => .ok (f m)) (fun p => .ok (g p)) :=
  fun m hm => ⟨f m, rfl, (h m hm).1, (h m hm).2⟩

theorem Refines.foldlM {α : Type} {o : Nat} {f : Mem F d → α → Except PyErr (Mem F d)}
    {g : LdParticle F d → α → Except PyErr (LdParticle F d)} (l : List α)
    (h : ∀ i, Refines o (fun m => f m i) (fun p => g p i)) :
    Refines o (fun m => l.foldlM f m) (fun p => l.foldlM g p) := by
  induction l with
  | nil => exact fun m hm => ⟨m, rfl, rfl, Upd.refl hm⟩
  | cons i l ih =>
    have := (h i).bind ih
    intro m hm
    have h1 := this m hm
    simp only [List.foldlM_cons]
    exact h1

end

section
variable {F : Type} {d : Nat} [LT F] [DecidableLT F]

/-- The boundary condition as function of the particle. -/
def bcParticle [Add F] [Sub F] [Neg F] (pot : Potential F d) (p : LdParticle F d) : Except PyErr (LdParticle F d) := do
  let pm ← pot.applyBc p.pos p.mom
  return { p with
    pos := pm.1
    mom := pm.2 }

/-- Loop body of the reflective condition on a particle. -/
def reflectParticle [Neg F] (ranges : List (F × F)) (p : LdParticle F d) (i : Fin d) :
    Except PyErr (LdParticle F d) := do
  let pm ← reflectStep ranges (p.pos, p.mom) i
  return { p with
    pos := pm.1
    mom := pm.2 }

/-- Loop body of the periodic condition on a particle. -/
def periodicParticle [Add F] [Sub F] (ranges : List (F × F)) (p : LdParticle F d) (i : Fin d) :
    Except PyErr (LdParticle F d) := do
  let pm ← periodicStep ranges (p.pos, p.mom) i
  return { p with
    pos := pm.1
    mom := pm.2 }

omit [LT F] [DecidableLT F] in
theorem foldlM_particle (step : (Fin d → F) × (Fin d → F) → Fin d → Except PyErr ((Fin d → F) × (Fin d → F)))
    (l : List (Fin d)) : ∀ p : LdParticle F d,
    l.foldlM (fun p i => (do
      let pm ← step (p.pos, p.mom) i
      return { p with
        pos := pm.1
        mom := pm.2 } : Except PyErr (LdParticle F d))) p =
    (do
      let pm ← l.foldlM step (p.pos, p.mom)
      return { p with
        pos := pm.1
        mom := pm.2 }) := by
  induction l with
  | nil => intro p; rfl
  | cons i l ih =>
    intro p
    simp only [List.foldlM_cons]
    cases h : step (p.pos, p.mom) i with
    | error e => simp only [error_bind]
    | ok x =>
      simp only [ok_bind, pure_eq_ok]
      have := ih { p with
        pos := x.1
        mom := x.2 }
      simp only [pure_eq_ok] at this
      rw [this]

theorem refines_reflect [Neg F] (ranges : List (F × F)) (o : Nat) (i : Fin d) :
    Refines o (fun m : Mem F d => heapReflectStep ranges (m.obj o).pos (m.obj o).mom m i)
      (fun p => reflectParticle ranges p i) := by
  intro m hm
  have hne : (m.obj o).mom ≠ (m.obj o).pos := fun e => absurd (hm.inj 1 0 e) (by decide)
  unfold reflectParticle reflectStep heapReflectStep
  cases hr : ranges[i.val]? with
  | none => simp only [error_bind]
  | some r =>
    simp only
    have key : ∀ x : F, ∃ m', (Except.ok (ε := PyErr) ((m.write (m.obj o).pos (Function.update (m.arr (m.obj o).pos) i x)).write (m.obj o).mom
        (Function.update ((m.write (m.obj o).pos (Function.update (m.arr (m.obj o).pos) i x)).arr (m.obj o).mom) i
          (-((m.write (m.obj o).pos (Function.update (m.arr (m.obj o).pos) i x)).arr (m.obj o).mom i))))) = .ok m' ∧
        m'.view o = { m.view o with
          pos := Function.update (m.view o).pos i x
          mom := Function.update (m.view o).mom i (-((m.view o).mom i)) } ∧ Upd m o m' := by
      intro x
      have u1 := upd_write hm 0 (Function.update (m.arr (m.obj o).pos) i x)
      have u2 := upd_write u1.own 1 (Function.update ((m.write (m.obj o).pos (Function.update (m.arr (m.obj o).pos) i x)).arr (m.obj o).mom) i
          (-((m.write (m.obj o).pos (Function.update (m.arr (m.obj o).pos) i x)).arr (m.obj o).mom i)))
      refine ⟨_, rfl, ?_, u1.trans u2⟩
      have w2 := view_write_mom u1.own (Function.update ((m.write (m.obj o).pos (Function.update (m.arr (m.obj o).pos) i x)).arr (m.obj o).mom) i
          (-((m.write (m.obj o).pos (Function.update (m.arr (m.obj o).pos) i x)).arr (m.obj o).mom i)))
      have w1 := view_write_pos hm (Function.update (m.arr (m.obj o).pos) i x)
      have w1' : (m.write ((m.obj o).ref 0) (Function.update (m.arr (m.obj o).pos) i x)).view o = _ := w1
      rw [w1'] at w2
      refine w2.trans ?_
      have hmom : (m.write (m.obj o).pos (Function.update (m.arr (m.obj o).pos) i x)).arr (m.obj o).mom =
          m.arr (m.obj o).mom := Function.update_of_ne hne _ _
      rw [hmom]
      rfl
    by_cases h1 : m.arr (m.obj o).pos i < r.1
    · have h1' : (m.view o).pos i < r.1 := h1
      rw [if_pos h1', if_pos h1, ok_bind]
      exact key r.1
    · have h1' : ¬ (m.view o).pos i < r.1 := h1
      rw [if_neg h1', if_neg h1]
      by_cases h2 : r.2 < m.arr (m.obj o).pos i
      · have h2' : r.2 < (m.view o).pos i := h2
        rw [if_pos h2', if_pos h2, ok_bind]
        exact key r.2
      · have h2' : ¬ r.2 < (m.view o).pos i := h2
        rw [if_neg h2', if_neg h2, ok_bind]
        exact ⟨m, rfl, rfl, Upd.refl hm⟩

theorem refines_periodic [Add F] [Sub F] (ranges : List (F × F)) (o : Nat) (i : Fin d) :
    Refines o (fun m : Mem F d => heapPeriodicStep ranges (m.obj o).pos m i)
      (fun p => periodicParticle ranges p i) := by
  intro m hm
  unfold periodicParticle periodicStep heapPeriodicStep
  cases hr : ranges[i.val]? with
  | none => simp only [error_bind]
  | some r =>
    simp only
    by_cases h1 : m.arr (m.obj o).pos i < r.1
    · have h1' : (m.view o).pos i < r.1 := h1
      rw [if_pos h1', if_pos h1, ok_bind]
      exact ⟨_, rfl, view_write_pos hm _, upd_write hm 0 _⟩
    · have h1' : ¬ (m.view o).pos i < r.1 := h1
      rw [if_neg h1', if_neg h1]
      by_cases h2 : r.2 < m.arr (m.obj o).pos i
      · have h2' : r.2 < (m.view o).pos i := h2
        rw [if_pos h2', if_pos h2, ok_bind]
        exact ⟨_, rfl, view_write_pos hm _, upd_write hm 0 _⟩
      · have h2' : ¬ r.2 < (m.view o).pos i := h2
        rw [if_neg h2', if_neg h2, ok_bind]
        exact ⟨m, rfl, rfl, Upd.refl hm⟩

/-- The addresses used by the boundary condition stay the same during its loop. -/
theorem heapReflect_obj [Neg F] (ranges : List (F × F)) (ap am : Nat) (m m' : Mem F d) (i : Fin d)
    (h : heapReflectStep ranges ap am m i = .ok m') : m'.obj = m.obj := by
  unfold heapReflectStep at h
  cases hr : ranges[i.val]? with
  | none => rw [hr] at h; cases h
  | some r =>
    rw [hr] at h
    simp only at h
    split at h
    · injection h with h; subst h; rfl
    · split at h
      · injection h with h; subst h; rfl
      · injection h with h; subst h; rfl

theorem heapPeriodic_obj [Add F] [Sub F] (ranges : List (F × F)) (ap : Nat) (m m' : Mem F d) (i : Fin d)
    (h : heapPeriodicStep ranges ap m i = .ok m') : m'.obj = m.obj := by
  unfold heapPeriodicStep at h
  cases hr : ranges[i.val]? with
  | none => rw [hr] at h; cases h
  | some r =>
    rw [hr] at h
    simp only at h
    split at h
    · injection h with h; subst h; rfl
    · split at h
      · injection h with h; subst h; rfl
      · injection h with h; subst h; rfl

omit [LT F] [DecidableLT F] in
theorem foldlM_const_addr {α : Type} (o : Nat) (f : HObj F → Mem F d → α → Except PyErr (Mem F d))
    (hf : ∀ x m m' i, f x m i = .ok m' → m'.obj = m.obj) (l : List α) : ∀ m : Mem F d,
    l.foldlM (fun m i => f (m.obj o) m i) m = l.foldlM (f (m.obj o)) m := by
  induction l with
  | nil => intro m; rfl
  | cons i l ih =>
    intro m
    simp only [List.foldlM_cons]
    cases h : f (m.obj o) m i with
    | error e => simp only [error_bind]
    | ok m' =>
      simp only [ok_bind]
      rw [ih m', hf _ _ _ _ h]

theorem refines_bc [Add F] [Sub F] [Neg F] (pot : Potential F d) (o : Nat) :
    Refines o (fun m : Mem F d => heapBc pot (m.obj o).pos (m.obj o).mom m) (bcParticle pot) := by
  unfold heapBc bcParticle Potential.applyBc
  cases pot.bc with
  | none =>
    intro m hm
    exact ⟨m, rfl, rfl, Upd.refl hm⟩
  | some b =>
    cases b with
    | reflective =>
      have h := Refines.foldlM (List.finRange d) (fun i => refines_reflect pot.ranges o i)
      intro m hm
      have h1 := h m hm
      have e1 := foldlM_const_addr o (fun x m i => heapReflectStep pot.ranges x.pos x.mom m i)
        (fun x m m' i hh => heapReflect_obj _ _ _ _ _ _ hh) (List.finRange d) m
      have e2 := foldlM_particle (reflectStep pot.ranges) (List.finRange d) (m.view o)
      simp only at h1 e1 ⊢
      rw [e1] at h1
      unfold reflectParticle at h1
      rw [e2] at h1
      exact h1
    | periodic =>
      have h := Refines.foldlM (List.finRange d) (fun i => refines_periodic pot.ranges o i)
      intro m hm
      have h1 := h m hm
      have e1 := foldlM_const_addr o (fun x m i => heapPeriodicStep pot.ranges x.pos m i)
        (fun x m m' i hh => heapPeriodic_obj _ _ _ _ _ hh) (List.finRange d) m
      have e2 := foldlM_particle (periodicStep pot.ranges) (List.finRange d) (m.view o)
      simp only at h1 e1 ⊢
      rw [e1] at h1
      unfold periodicParticle at h1
      rw [e2] at h1
      exact h1

variable [Add F] [Sub F] [Mul F] [Div F] [Neg F]

theorem refines_bussi (c : LdCfg F d) (n1 n2 : Fin d → F) (o : Nat) :
    Refines o (heapBussi c n1 n2 o) (bussiStep c n1 n2) := by
  have hA : Refines o (fun m : Mem F d => .ok (m.newMom o (thermostat c.c1 (m.obj o).c2 (m.arr (m.obj o).mom) n1)))
      (fun p => .ok { p with mom := thermostat c.c1 p.c2 p.mom n1 }) :=
    Refines.pure (fun m hm => ⟨view_newMom hm _, upd_newMom hm _⟩)
  have hK : Refines o (fun m : Mem F d => .ok (m.write (m.obj o).mom
        (kick c.half c.dt (m.arr (m.obj o).mom) (m.arr (m.obj o).forces))))
      (fun p => .ok { p with mom := kick c.half c.dt p.mom p.forces }) :=
    Refines.pure (fun m hm => ⟨view_write_mom hm _, upd_write hm 1 _⟩)
  have hD : Refines o (fun m : Mem F d => .ok (m.write (m.obj o).pos
        (drift c.dt (m.obj o).mass (m.arr (m.obj o).pos) (m.arr (m.obj o).mom))))
      (fun p => .ok { p with pos := drift c.dt p.mass p.pos p.mom }) :=
    Refines.pure (fun m hm => ⟨view_write_pos hm _, upd_write hm 0 _⟩)
  have hE : Refines o (fun m : Mem F d => .ok (m.newForces o (c.pot.evaluate (m.arr (m.obj o).pos))))
      (fun p => .ok { p with
        energy := (c.pot.evaluate p.pos).1
        forces := (c.pot.evaluate p.pos).2 }) :=
    Refines.pure (fun m hm => ⟨view_newForces hm _, upd_newForces hm _⟩)
  have hA2 : Refines o (fun m : Mem F d => .ok (m.newMom o (thermostat c.c1 (m.obj o).c2 (m.arr (m.obj o).mom) n2)))
      (fun p => .ok { p with mom := thermostat c.c1 p.c2 p.mom n2 }) :=
    Refines.pure (fun m hm => ⟨view_newMom hm _, upd_newMom hm _⟩)
  have h := ((((((hA.bind hK).bind hD).bind (refines_bc c.pot o)).bind hE).bind hK).bind hA2)
  intro m hm
  have h1 := h m hm
  have ef : heapBussi c n1 n2 o m = (((((((Except.ok (m.newMom o (thermostat c.c1 (m.obj o).c2 (m.arr (m.obj o).mom) n1)) >>=
      (fun m : Mem F d => Except.ok (m.write (m.obj o).mom
        (kick c.half c.dt (m.arr (m.obj o).mom) (m.arr (m.obj o).forces)))))) >>=
      (fun m : Mem F d => Except.ok (m.write (m.obj o).pos
        (drift c.dt (m.obj o).mass (m.arr (m.obj o).pos) (m.arr (m.obj o).mom))))) >>=
      (fun m : Mem F d => heapBc c.pot (m.obj o).pos (m.obj o).mom m)) >>=
      (fun m : Mem F d => Except.ok (m.newForces o (c.pot.evaluate (m.arr (m.obj o).pos))))) >>=
      (fun m : Mem F d => Except.ok (m.write (m.obj o).mom
        (kick c.half c.dt (m.arr (m.obj o).mom) (m.arr (m.obj o).forces))))) >>=
      (fun m : Mem F d => Except.ok (m.newMom o (thermostat c.c1 (m.obj o).c2 (m.arr (m.obj o).mom) n2))) :
        Except PyErr (Mem F d)) := by
    unfold heapBussi
    simp only [ok_bind]
    cases heapBc c.pot _ _ _ with
    | error e => simp only [error_bind]
    | ok m4 => simp only [ok_bind, pure_eq_ok]; rfl
  have eg : bussiStep c n1 n2 (m.view o) = (((((((Except.ok { m.view o with mom := thermostat c.c1 (m.view o).c2 (m.view o).mom n1 } >>=
      (fun p : LdParticle F d => Except.ok { p with mom := kick c.half c.dt p.mom p.forces })) >>=
      (fun p => Except.ok { p with pos := drift c.dt p.mass p.pos p.mom })) >>= bcParticle c.pot) >>=
      (fun p => Except.ok { p with
        energy := (c.pot.evaluate p.pos).1
        forces := (c.pot.evaluate p.pos).2 })) >>=
      (fun p => Except.ok { p with mom := kick c.half c.dt p.mom p.forces }))) >>=
      (fun p => Except.ok { p with mom := thermostat c.c1 p.c2 p.mom n2 }) :
        Except PyErr (LdParticle F d)) := by
    unfold bussiStep bcParticle
    simp only [ok_bind]
    cases c.pot.applyBc _ _ with
    | error e => simp only [error_bind]
    | ok m4 => simp only [ok_bind, pure_eq_ok]; rfl
  rw [ef, eg]
  exact h1

omit [Div F] in
theorem refines_overdamped (c : LdCfg F d) (n : Fin d → F) (o : Nat) :
    Refines o (heapOverdamped c n o) (overdampedStep c n) := by
  have hD : Refines o (fun m : Mem F d => .ok (m.write (m.obj o).pos
        (fun k => m.arr (m.obj o).pos k + (c.dt * m.arr (m.obj o).forces k + c.noiseFactor * n k))))
      (fun p => .ok { p with pos := fun k => p.pos k + (c.dt * p.forces k + c.noiseFactor * n k) }) :=
    Refines.pure (fun m hm => ⟨view_write_pos hm _, upd_write hm 0 _⟩)
  have hE : Refines o (fun m : Mem F d => .ok (m.newForces o (c.pot.evaluate (m.arr (m.obj o).pos))))
      (fun p => .ok { p with
        energy := (c.pot.evaluate p.pos).1
        forces := (c.pot.evaluate p.pos).2 }) :=
    Refines.pure (fun m hm => ⟨view_newForces hm _, upd_newForces hm _⟩)
  have h := ((hD.bind (refines_bc c.pot o)).bind hE)
  intro m hm
  have h1 := h m hm
  have ef : heapOverdamped c n o m = ((Except.ok (m.write (m.obj o).pos
        (fun k => m.arr (m.obj o).pos k + (c.dt * m.arr (m.obj o).forces k + c.noiseFactor * n k))) >>=
      (fun m : Mem F d => heapBc c.pot (m.obj o).pos (m.obj o).mom m)) >>=
      (fun m : Mem F d => Except.ok (m.newForces o (c.pot.evaluate (m.arr (m.obj o).pos)))) :
        Except PyErr (Mem F d)) := by
    unfold heapOverdamped
    simp only [ok_bind]
    rfl
  have eg : overdampedStep c n (m.view o) = ((Except.ok { m.view o with
        pos := fun k => (m.view o).pos k + (c.dt * (m.view o).forces k + c.noiseFactor * n k) } >>= bcParticle c.pot) >>=
      (fun p => Except.ok { p with
        energy := (c.pot.evaluate p.pos).1
        forces := (c.pot.evaluate p.pos).2 }) : Except PyErr (LdParticle F d)) := by
    unfold overdampedStep bcParticle
    simp only [ok_bind]
    cases c.pot.applyBc _ _ with
    | error e => simp only [error_bind]
    | ok m4 => simp only [ok_bind, pure_eq_ok]
  rw [ef, eg]
  exact h1

end

end Bdld
