import Verif.Lemmas.Heap
import Verif.Props.Langevin

/-
C16: walkers never share storage, and the memory model behaves like the value model.
-/

namespace Bdld

section
variable {F : Type} {d : Nat}

/-- No two entries of the particle list are the same object, and no two arrays of particles are the same array. -/
structure Mem.WF (m : Mem F d) : Prop where
  nodup : m.list.Nodup
  lt : ∀ o ∈ m.list, o < m.nObj
  own : ∀ o ∈ m.list, m.Own o
  disj : ∀ o ∈ m.list, ∀ o' ∈ m.list, o ≠ o' → ∀ i j, (m.obj o).ref i ≠ (m.obj o').ref j

/-- An array that exists and does not belong to a particle of the list. -/
def Mem.Foreign (m : Mem F d) (a : Nat) : Prop := a < m.nArr ∧ ∀ o ∈ m.list, ∀ i, a ≠ (m.obj o).ref i

/-- Arrays of others stay untouched, and are not taken over by particles. -/
def Frame (m m' : Mem F d) : Prop := ∀ a, m.Foreign a → m'.Foreign a ∧ m'.arr a = m.arr a

theorem Frame.refl (m : Mem F d) : Frame m m := fun _ h => ⟨h, rfl⟩

theorem Frame.trans {m m' m'' : Mem F d} (h : Frame m m') (h' : Frame m' m'') : Frame m m'' :=
  fun a ha => ⟨(h' a (h a ha).1).1, (h' a (h a ha).1).2.trans (h a ha).2⟩

theorem upd_wf {m m' : Mem F d} {o : Nat} (hm : m.WF) (ho : o ∈ m.list) (h : Upd m o m') :
    m'.WF ∧ Frame m m' ∧ ∀ o' ∈ m.list, o' ≠ o → m'.view o' = m.view o' := by
  have hkeep : ∀ o' ∈ m.list, o' ≠ o → ∀ i, m'.arr ((m.obj o').ref i) = m.arr ((m.obj o').ref i) :=
    fun o' ho' hne i => h.frame _ ((hm.own o' ho').lt i) (fun j => hm.disj o' ho' o ho hne i j)
  have hother : ∀ o' ∈ m.list, o' ≠ o → ∀ i j, (m'.obj o).ref i ≠ (m.obj o').ref j := by
    intro o' ho' hne i j e
    rcases h.ref i with h1 | h1
    · exact hm.disj o ho o' ho' (Ne.symm hne) i j (h1.symm.trans e)
    · have := (hm.own o' ho').lt j; omega
  refine ⟨⟨by rw [h.list]; exact hm.nodup, ?_, ?_, ?_⟩, ?_, ?_⟩
  · intro o' ho'
    rw [h.nObj]
    exact hm.lt o' (h.list ▸ ho')
  · intro o' ho'
    rw [h.list] at ho'
    by_cases e : o' = o
    · rw [e]; exact h.own
    · have hob := h.obj o' e
      exact ⟨fun i => by rw [hob]; exact lt_of_lt_of_le ((hm.own o' ho').lt i) h.nArr,
        fun i j => by rw [hob]; exact (hm.own o' ho').inj i j⟩
  · intro o1 h1 o2 h2 hne i j
    rw [h.list] at h1 h2
    by_cases e1 : o1 = o
    · have e2 : o2 ≠ o := fun e => hne (e1.trans e.symm)
      rw [e1, h.obj o2 e2]
      exact hother o2 h2 e2 i j
    · rw [h.obj o1 e1]
      by_cases e2 : o2 = o
      · rw [e2]
        exact fun e => hother o1 h1 e1 j i e.symm
      · rw [h.obj o2 e2]
        exact hm.disj o1 h1 o2 h2 hne i j
  · intro a ha
    refine ⟨⟨lt_of_lt_of_le ha.1 h.nArr, ?_⟩, h.frame a ha.1 (ha.2 o ho)⟩
    intro o' ho' i e
    rw [h.list] at ho'
    by_cases eo : o' = o
    · rw [eo] at e
      rcases h.ref i with h1 | h1
      · exact ha.2 o ho i (e.trans h1)
      · have := ha.1; omega
    · rw [h.obj o' eo] at e
      exact ha.2 o' ho' i e
  · intro o' ho' hne
    have k := hkeep o' ho' hne
    have k0 := k 0
    have k1 := k 1
    have k2 := k 2
    simp only [HObj.ref] at k0 k1 k2
    unfold Mem.view
    rw [h.obj o' hne, k0, k1, k2]

/-- The first consequence: changing the position or momentum array of one walker in place does not change any
other walker. -/
theorem wf_independent {m : Mem F d} (hm : m.WF) (k k' o o' : Nat) (hk : m.list[k]? = some o)
    (hk' : m.list[k']? = some o') (hne : k ≠ k') (i : Fin 3) (v : Fin d → F) :
    (m.write ((m.obj o).ref i) v).view o' = m.view o' := by
  have ho := List.mem_of_getElem? hk
  have ho' := List.mem_of_getElem? hk'
  have hoo : o' ≠ o := by
    intro e
    subst e
    obtain ⟨l1, g1⟩ := List.getElem?_eq_some_iff.1 hk
    obtain ⟨l2, g2⟩ := List.getElem?_eq_some_iff.1 hk'
    exact hne ((List.Nodup.getElem_inj_iff hm.nodup).1 (g1.trans g2.symm))
  exact (upd_wf hm ho (upd_write (hm.own o ho) i v)).2.2 o' ho' hoo

section
variable [Add F] [Sub F] [Mul F] [Div F] [Neg F] [LT F] [DecidableLT F]

theorem heapParticleStep_eq {R : Type} (kind : LdKind) (c : LdCfg F d) (normal : NormalOps R F d) (o : Nat)
    (m : Mem F d) (r : R) (hm : m.Own o) :
    match particleStep kind c normal (m.view o) r with
    | .error e => heapParticleStep kind c normal o m r = .error e
    | .ok x => ∃ m', heapParticleStep kind c normal o m r = .ok (m', x.2) ∧ m'.view o = x.1 ∧ Upd m o m' := by
  cases kind with
  | bussi =>
    have h := refines_bussi c (normal r).1 (normal (normal r).2).1 o m hm
    unfold particleStep heapParticleStep
    simp only
    cases hb : bussiStep c (normal r).1 (normal (normal r).2).1 (m.view o) with
    | error e => rw [hb] at h; simp only at h; rw [h]; simp only [error_bind]
    | ok p =>
      rw [hb] at h
      obtain ⟨m', h1, h2, h3⟩ := h
      rw [h1]
      simp only [ok_bind, pure_eq_ok]
      exact ⟨m', rfl, h2, h3⟩
  | overdamped =>
    have h := refines_overdamped c (normal r).1 o m hm
    unfold particleStep heapParticleStep
    simp only
    cases hb : overdampedStep c (normal r).1 (m.view o) with
    | error e => rw [hb] at h; simp only at h; rw [h]; simp only [error_bind]
    | ok p =>
      rw [hb] at h
      obtain ⟨m', h1, h2, h3⟩ := h
      rw [h1]
      simp only [ok_bind, pure_eq_ok]
      exact ⟨m', rfl, h2, h3⟩

theorem heapLoop_eq {R : Type} (kind : LdKind) (c : LdCfg F d) (normal : NormalOps R F d) (os : List Nat) :
    ∀ (m : Mem F d) (r : R), m.WF → os.Nodup → (∀ o ∈ os, o ∈ m.list) →
    match ldLoop kind c normal (os.map m.view) r with
    | .error e => heapLoop kind c normal os m r = .error e
    | .ok x => ∃ m', heapLoop kind c normal os m r = .ok (m', x.2) ∧ os.map m'.view = x.1 ∧ m'.WF ∧
        m'.list = m.list ∧ Frame m m' ∧ ∀ o ∈ m.list, o ∉ os → m'.view o = m.view o := by
  induction os with
  | nil =>
    intro m r hm _ _
    exact ⟨m, rfl, rfl, hm, rfl, Frame.refl m, fun _ _ _ => rfl⟩
  | cons o os ih =>
    intro m r hm hnd hin
    have ho := hin o (by simp)
    have hs := heapParticleStep_eq kind c normal o m r (hm.own o ho)
    unfold heapLoop
    rw [List.map_cons]
    unfold ldLoop
    cases hp : particleStep kind c normal (m.view o) r with
    | error e =>
      rw [hp] at hs
      simp only at hs
      rw [hs]
      simp only [error_bind]
    | ok x =>
      rw [hp] at hs
      obtain ⟨m1, h1, h2, h3⟩ := hs
      rw [h1]
      simp only [ok_bind]
      obtain ⟨w1, w2, w3⟩ := upd_wf hm ho h3
      have hnd' := List.nodup_cons.1 hnd
      have hi := ih m1 x.2 w1 hnd'.2 (fun q hq => by rw [h3.list]; exact hin q (by simp [hq]))
      have hv : os.map m1.view = os.map m.view := List.map_congr_left (fun q hq =>
        w3 q (hin q (by simp [hq])) (fun e => hnd'.1 (e ▸ hq)))
      rw [hv] at hi
      cases hl : ldLoop kind c normal (os.map m.view) x.2 with
      | error e =>
        rw [hl] at hi
        simp only at hi
        rw [hi]
        simp only [error_bind]
      | ok y =>
        rw [hl] at hi
        obtain ⟨m2, g1, g2, g3, g4, g5, g6⟩ := hi
        rw [g1]
        simp only [ok_bind, pure_eq_ok]
        refine ⟨m2, rfl, ?_, g3, g4.trans h3.list, w2.trans g5, ?_⟩
        · rw [List.map_cons, g2, g6 o (by rw [h3.list]; exact ho) hnd'.1, h2]
        · intro q hq hqn
          rw [List.mem_cons, not_or] at hqn
          rw [g6 q (by rw [h3.list]; exact hq) hqn.2, w3 q hq hqn.1]

end

/-- A new object inserted into the list: the new list consists of old objects and the new one (once). -/
theorem newObj_wf {m : Mem F d} (hm : m.WF) (pos mom forces : Fin d → F) (mass energy c2 : F) (l : List Nat)
    (hnd : l.Nodup) (hl : ∀ o ∈ l, o ∈ m.list ∨ o = m.nObj) :
    let m' := { m.newObj pos mom forces mass energy c2 with list := l }
    m'.WF ∧ Frame m m' ∧ (∀ o ∈ m.list, m'.view o = m.view o) ∧
      m'.view m.nObj = ⟨pos, mom, mass, energy, forces, c2⟩ := by
  intro m'
  have hnew : m'.obj m.nObj = ⟨m.nArr, m.nArr + 1, m.nArr + 2, mass, energy, c2⟩ := Function.update_self ..
  have hold : ∀ o ∈ m.list, m'.obj o = m.obj o := fun o ho =>
    Function.update_of_ne (Nat.ne_of_lt (hm.lt o ho)) _ _
  have harr : ∀ a < m.nArr, m'.arr a = m.arr a := by
    intro a ha
    show Function.update (Function.update (Function.update m.arr m.nArr pos) (m.nArr + 1) mom) (m.nArr + 1 + 1) forces a = _
    rw [Function.update_of_ne (by omega), Function.update_of_ne (by omega), Function.update_of_ne (by omega)]
  have hnArr : m'.nArr = m.nArr + 3 := rfl
  have hnewref : ∀ i, m.nArr ≤ (m'.obj m.nObj).ref i ∧ (m'.obj m.nObj).ref i < m'.nArr := by
    rw [hnew, hnArr]
    exact fin3 _ (by simp only [HObj.ref]; omega) (by simp only [HObj.ref]; omega) (by simp only [HObj.ref]; omega)
  refine ⟨⟨hnd, ?_, ?_, ?_⟩, ?_, ?_, ?_⟩
  · intro o ho
    show o < m.nObj + 1
    rcases hl o ho with h | h
    · have := hm.lt o h; omega
    · omega
  · intro o ho
    rcases hl o ho with h | h
    · rw [show m'.Own o ↔ m'.Own o from Iff.rfl]
      exact ⟨fun i => by rw [hold o h, hnArr]; have := (hm.own o h).lt i; omega,
        fun i j => by rw [hold o h]; exact (hm.own o h).inj i j⟩
    · subst h
      refine ⟨fun i => (hnewref i).2, ?_⟩
      rw [hnew]
      exact fin3 _ (fin3 _ (fun _ => rfl) (fun e => by simp only [HObj.ref] at e; omega)
        (fun e => by simp only [HObj.ref] at e; omega))
        (fin3 _ (fun e => by simp only [HObj.ref] at e; omega) (fun _ => rfl)
        (fun e => by simp only [HObj.ref] at e; omega))
        (fin3 _ (fun e => by simp only [HObj.ref] at e; omega) (fun e => by simp only [HObj.ref] at e; omega)
        (fun _ => rfl))
  · intro o1 h1 o2 h2 hne i j
    rcases hl o1 h1 with g1 | g1 <;> rcases hl o2 h2 with g2 | g2
    · rw [hold o1 g1, hold o2 g2]; exact hm.disj o1 g1 o2 g2 hne i j
    · rw [hold o1 g1, g2]
      have := (hm.own o1 g1).lt i
      have := (hnewref j).1
      omega
    · rw [hold o2 g2, g1]
      have := (hm.own o2 g2).lt j
      have := (hnewref i).1
      omega
    · exact absurd (g1.trans g2.symm) hne
  · intro a ha
    refine ⟨⟨by rw [hnArr]; have := ha.1; omega, ?_⟩, harr a ha.1⟩
    intro o ho i
    rcases hl o ho with h | h
    · rw [hold o h]; exact ha.2 o h i
    · rw [h]; have := (hnewref i).1; have := ha.1; omega
  · intro o ho
    have h0 := harr _ ((hm.own o ho).lt 0)
    have h1 := harr _ ((hm.own o ho).lt 1)
    have h2 := harr _ ((hm.own o ho).lt 2)
    simp only [HObj.ref] at h0 h1 h2
    unfold Mem.view
    rw [hold o ho, h0, h1, h2]
  · unfold Mem.view
    rw [hnew]
    have a0 : m'.arr m.nArr = pos := by
      show Function.update (Function.update (Function.update m.arr m.nArr pos) (m.nArr + 1) mom) (m.nArr + 1 + 1) forces _ = _
      rw [Function.update_of_ne (by omega), Function.update_of_ne (by omega), Function.update_self]
    have a1 : m'.arr (m.nArr + 1) = mom := by
      show Function.update (Function.update (Function.update m.arr m.nArr pos) (m.nArr + 1) mom) (m.nArr + 1 + 1) forces _ = _
      rw [Function.update_of_ne (by omega), Function.update_self]
    have a2 : m'.arr (m.nArr + 2) = forces := by
      show Function.update (Function.update (Function.update m.arr m.nArr pos) (m.nArr + 1) mom) (m.nArr + 1 + 1) forces _ = _
      exact Function.update_self ..
    simp only [a0, a1, a2]

theorem nodup_set {l : List Nat} {k x : Nat} (h : l.Nodup) (hx : x ∉ l) : (l.set k x).Nodup := by
  rw [List.nodup_iff_getElem?_ne_getElem?]
  intro i j hij hj e
  rw [List.length_set] at hj
  have hi : i < l.length := by omega
  rw [List.getElem?_set, List.getElem?_set] at e
  split at e
  · rename_i h1
    rw [if_pos (by omega)] at e
    split at e
    · omega
    · rw [List.getElem?_eq_getElem hj] at e
      injection e with e
      exact hx (e ▸ List.getElem_mem hj)
  · split at e
    · rw [if_pos (by omega), List.getElem?_eq_getElem hi] at e
      injection e with e
      exact hx (e ▸ List.getElem_mem hi)
    · exact (List.nodup_iff_getElem?_ne_getElem?.1 h) i j hij hj e

theorem heapMove_eq (m : Mem F d) (hm : m.WF) (e : Nat × Nat) :
    match performMove m.views e with
    | .error err => heapMove m e = .error err
    | .ok ps => ∃ m', heapMove m e = .ok m' ∧ m'.views = ps ∧ m'.WF ∧ Frame m m' := by
  unfold performMove heapMove
  unfold Mem.views
  rw [List.getElem?_map]
  cases ho : m.list[e.1]? with
  | none => simp only [Option.map_none]
  | some o =>
    simp only [Option.map_some, List.length_map]
    by_cases h2 : e.2 < m.list.length
    · rw [if_pos h2, if_pos h2]
      have hnot : m.nObj ∉ m.list := fun h => absurd (hm.lt _ h) (by omega)
      obtain ⟨w1, w2, w3, w4⟩ := newObj_wf hm (m.arr (m.obj o).pos) (m.arr (m.obj o).mom) (m.arr (m.obj o).forces)
        (m.obj o).mass (m.obj o).energy (m.obj o).c2 (m.list.set e.2 m.nObj) (nodup_set hm.nodup hnot)
        (fun q hq => List.mem_or_eq_of_mem_set hq)
      refine ⟨_, rfl, ?_, w1, w2⟩
      show (m.list.set e.2 m.nObj).map _ = _
      rw [List.map_set]
      have h3 : m.list.map _ = m.list.map m.view := List.map_congr_left (fun q hq => w3 q hq)
      exact congrArg₂ (fun l x => List.set l e.2 x) h3 w4
    · rw [if_neg h2, if_neg h2]

theorem heapMoves_eq (es : List (Nat × Nat)) : ∀ m : Mem F d, m.WF →
    match performMoves m.views es with
    | .error e => es.foldlM heapMove m = .error e
    | .ok ps => ∃ m', es.foldlM heapMove m = .ok m' ∧ m'.views = ps ∧ m'.WF ∧ Frame m m' := by
  unfold performMoves
  induction es with
  | nil => exact fun m hm => ⟨m, rfl, rfl, hm, Frame.refl m⟩
  | cons e es ih =>
    intro m hm
    have h1 := heapMove_eq m hm e
    simp only [List.foldlM_cons]
    cases hp : performMove m.views e with
    | error err =>
      rw [hp] at h1
      simp only at h1
      rw [h1]
      simp only [error_bind]
    | ok ps =>
      rw [hp] at h1
      obtain ⟨m1, g1, g2, g3, g4⟩ := h1
      rw [g1]
      simp only [ok_bind]
      have hi := ih m1 g3
      rw [g2] at hi
      cases hq : List.foldlM performMove ps es with
      | error err => rw [hq] at hi; exact hi
      | ok qs =>
        rw [hq] at hi
        obtain ⟨m2, k1, k2, k3, k4⟩ := hi
        exact ⟨m2, k1, k2, k3, g4.trans k4⟩

theorem pySetItem_map {α β : Type} (f : α → β) (l : List α) (i : Int) (x : α) :
    pySetItem (l.map f) i (f x) = (pySetItem l i x).map (List.map f) := by
  unfold pySetItem
  rw [List.length_map]
  split
  · simp [Except.map, List.map_set]
  · split
    · simp [Except.map, List.map_set]
    · rfl

theorem pyInsert_map {α β : Type} (f : α → β) (l : List α) (i : Int) (x : α) :
    pyInsert (l.map f) i (f x) = (pyInsert l i x).map f := by
  unfold pyInsert
  simp [List.map_take, List.map_drop]

theorem pyDelItem_map {α β : Type} (f : α → β) (l : List α) (i : Int) :
    pyDelItem (l.map f) i = (pyDelItem l i).map (List.map f) := by
  unfold pyDelItem
  rw [List.length_map]
  split
  · simp [Except.map, List.eraseIdx_map]
  · split
    · simp [Except.map, List.eraseIdx_map]
    · rfl

theorem nodup_pySetItem {l l' : List Nat} {i : Int} {x : Nat} (h : l.Nodup) (hx : x ∉ l)
    (hs : pySetItem l i x = .ok l') : l'.Nodup := by
  unfold pySetItem at hs
  split at hs
  · injection hs with hs; subst hs; exact nodup_set h hx
  · split at hs
    · injection hs with hs; subst hs; exact nodup_set h hx
    · cases hs

theorem nodup_pyInsert {l : List Nat} {i : Int} {x : Nat} (h : l.Nodup) (hx : x ∉ l) : (pyInsert l i x).Nodup := by
  unfold pyInsert
  rw [List.nodup_middle]
  rw [List.take_append_drop]
  exact List.nodup_cons.2 ⟨hx, h⟩

theorem nodup_pyDelItem {l l' : List Nat} {i : Int} (h : l.Nodup) (hs : pyDelItem l i = .ok l') : l'.Nodup := by
  unfold pyDelItem at hs
  split at hs
  · injection hs with hs; subst hs; exact h.eraseIdx _
  · split at hs
    · injection hs with hs; subst hs; exact h.eraseIdx _
    · cases hs

section
variable [Add F] [Sub F] [Mul F] [Div F] [Neg F] [LT F] [DecidableLT F] [Zero F]

/-- The value operation belonging to a memory operation; positions are read from the memory `m`. -/
def HOp.toValue (m : Mem F d) (mass : F) : HOp → LdOp F
  | .step => .step
  | .moves es => .moves es
  | .addArr src k ow => .add (List.ofFn (m.arr src)) mass k ow
  | .remove k => .remove k

/-- One operation. -/
theorem heapApply_eq {R : Type} (kind : LdKind) (c : LdCfg F d) (normal : NormalOps R F d) (mass : F) (m : Mem F d)
    (r : R) (hm : m.WF) (op : HOp) :
    match LdState.apply kind c normal ⟨m.views, r⟩ (op.toValue m mass) with
    | .error e => heapApply kind c normal mass (m, r) op = .error e
    | .ok s => ∃ m', heapApply kind c normal mass (m, r) op = .ok (m', s.rng) ∧ m'.views = s.particles ∧ m'.WF ∧
        Frame m m' := by
  cases op with
  | step =>
    have h := heapLoop_eq kind c normal m.list m r hm hm.nodup (fun _ h => h)
    unfold HOp.toValue LdState.apply LdState.run heapApply
    simp only
    unfold Mem.views
    cases hl : ldLoop kind c normal (m.list.map m.view) r with
    | error e => rw [hl] at h; simp only [error_bind]; exact h
    | ok x =>
      rw [hl] at h
      obtain ⟨m', g1, g2, g3, g4, g5, _⟩ := h
      simp only [ok_bind, pure_eq_ok]
      exact ⟨m', g1, by rw [g4]; exact g2, g3, g5⟩
  | moves es =>
    have h := heapMoves_eq es m hm
    unfold HOp.toValue LdState.apply heapApply
    simp only
    cases hl : performMoves m.views es with
    | error e => rw [hl] at h; simp only at h; rw [h]; simp only [error_bind]
    | ok ps =>
      rw [hl] at h
      obtain ⟨m', g1, g2, g3, g4⟩ := h
      rw [g1]
      simp only [ok_bind, pure_eq_ok]
      exact ⟨m', rfl, g2, g3, g4⟩
  | addArr src k ow =>
    have hnot : m.nObj ∉ m.list := fun h => absurd (hm.lt _ h) (by omega)
    unfold HOp.toValue LdState.apply LdState.addParticle heapApply heapAdd
    simp only
    rw [dif_pos (by simp)]
    have hpos : (fun k : Fin d => (List.ofFn (m.arr src)).get (k.cast (by simp))) = m.arr src := by
      funext k; simp
    simp only [hpos]
    have key : ∀ l : List Nat, l.Nodup → (∀ o ∈ l, o ∈ m.list ∨ o = m.nObj) → ∀ ps,
        ps = l.map (fun o => if o = m.nObj then newParticle c (m.arr src) mass else m.view o) →
        ∃ m', (Except.ok (ε := PyErr) (({ m.newObj (m.arr src) (fun _ => 0) (c.pot.evaluate (m.arr src)).2 mass
            (c.pot.evaluate (m.arr src)).1 (c.c2of mass) with list := l } : Mem F d), r)) = .ok (m', r) ∧
          m'.views = ps ∧ m'.WF ∧ Frame m m' := by
      intro l hnd hl ps hps
      obtain ⟨w1, w2, w3, w4⟩ := newObj_wf hm (m.arr src) (fun _ => 0) (c.pot.evaluate (m.arr src)).2 mass
        (c.pot.evaluate (m.arr src)).1 (c.c2of mass) l hnd hl
      refine ⟨_, rfl, ?_, w1, w2⟩
      rw [hps]
      refine List.map_congr_left (fun o ho => ?_)
      by_cases e : o = m.nObj
      · rw [if_pos e, e]; exact w4
      · rw [if_neg e]
        exact w3 o ((hl o ho).resolve_right e)
    have hviews : m.views = m.list.map (fun o => if o = m.nObj then newParticle c (m.arr src) mass else m.view o) :=
      List.map_congr_left (fun o ho => by
        have hne : o ≠ m.nObj := fun e => hnot (e ▸ ho)
        rw [if_neg hne])
    cases ow with
    | true =>
      simp only [if_true]
      have hps := pySetItem_map (fun o => if o = m.nObj then newParticle c (m.arr src) mass else m.view o)
        m.list k m.nObj
      rw [← hviews, if_pos rfl] at hps
      rw [hps]
      cases hs : pySetItem m.list k m.nObj with
      | error e => simp only [Except.map, error_bind]
      | ok l =>
        simp only [Except.map, ok_bind, pure_eq_ok]
        exact key l (nodup_pySetItem hm.nodup hnot hs) (fun o ho => mem_pySetItem hs ho) _ rfl
    | false =>
      simp only [Bool.false_eq_true, if_false]
      by_cases hk : k = -1
      · simp only [if_pos hk, ok_bind, pure_eq_ok]
        refine key (m.list ++ [m.nObj]) ?_ (fun o ho => ?_) _ ?_
        · rw [List.nodup_append]
          refine ⟨hm.nodup, by simp, fun a ha b hb => ?_⟩
          rw [List.mem_singleton.1 hb]
          exact fun e => hnot (e ▸ ha)
        · rcases List.mem_append.1 ho with h | h
          · exact Or.inl h
          · exact Or.inr (List.mem_singleton.1 h)
        · rw [List.map_append, ← hviews]
          simp
      · simp only [if_neg hk, ok_bind, pure_eq_ok]
        refine key (pyInsert m.list k m.nObj) (nodup_pyInsert hm.nodup hnot) (fun o ho => mem_pyInsert ho) _ ?_
        rw [← pyInsert_map, ← hviews]
        simp
  | remove k =>
    unfold HOp.toValue LdState.apply LdState.removeParticle heapApply
    simp only
    unfold Mem.views
    rw [pyDelItem_map]
    cases hs : pyDelItem m.list k with
    | error e => simp only [Except.map, error_bind]
    | ok l =>
      simp only [Except.map, ok_bind, pure_eq_ok]
      have hsub : ∀ o ∈ l, o ∈ m.list := fun o ho => mem_pyDelItem hs ho
      refine ⟨_, rfl, rfl, ⟨nodup_pyDelItem hm.nodup hs, fun o ho => hm.lt o (hsub o ho),
        fun o ho => ?_, fun o1 h1 o2 h2 hne i j => hm.disj o1 (hsub o1 h1) o2 (hsub o2 h2) hne i j⟩, ?_⟩
      · exact ⟨(hm.own o (hsub o ho)).lt, (hm.own o (hsub o ho)).inj⟩
      · exact fun a ha => ⟨⟨ha.1, fun o ho i => ha.2 o (hsub o ho) i⟩, rfl⟩

/-- C16: for every sequence of operations, the memory model and the value model give the same particles (or the
same error), in every state reached different particles share no array, and arrays of the caller (the addresses
below `m0.nArr`, from which initial positions are taken) are never changed. The simulation starts with an empty
particle list. -/
theorem heap_refines {R : Type} (kind : LdKind) (c : LdCfg F d) (normal : NormalOps R F d) (mass : F) (m0 : Mem F d)
    (h0 : m0.list = []) (r : R) (ops : List HOp)
    (hops : ∀ src k ow, HOp.addArr src k ow ∈ ops → src < m0.nArr) :
    match (ops.map (HOp.toValue m0 mass)).foldlM (LdState.apply kind c normal) ⟨[], r⟩ with
    | .error e => ops.foldlM (heapApply kind c normal mass) (m0, r) = .error e
    | .ok s => ∃ m, ops.foldlM (heapApply kind c normal mass) (m0, r) = .ok (m, s.rng) ∧ m.views = s.particles ∧
        m.WF ∧ ∀ a < m0.nArr, m.arr a = m0.arr a := by
  have gen : ∀ (ops : List HOp) (m : Mem F d) (r : R), (∀ src k ow, HOp.addArr src k ow ∈ ops → src < m0.nArr) →
      m.WF → (∀ a < m0.nArr, m.Foreign a ∧ m.arr a = m0.arr a) →
      match (ops.map (HOp.toValue m0 mass)).foldlM (LdState.apply kind c normal) ⟨m.views, r⟩ with
      | .error e => ops.foldlM (heapApply kind c normal mass) (m, r) = .error e
      | .ok s => ∃ m', ops.foldlM (heapApply kind c normal mass) (m, r) = .ok (m', s.rng) ∧ m'.views = s.particles ∧
          m'.WF ∧ ∀ a < m0.nArr, m'.arr a = m0.arr a := by
    intro ops
    induction ops with
    | nil => exact fun m r _ hm hf => ⟨m, rfl, rfl, hm, fun a ha => (hf a ha).2⟩
    | cons op ops ih =>
      intro m r hops hm hf
      have htv : op.toValue m0 mass = op.toValue m mass := by
        cases op with
        | addArr src k ow =>
          unfold HOp.toValue
          simp only
          rw [(hf src (hops src k ow (by simp))).2]
        | _ => rfl
      have h1 := heapApply_eq kind c normal mass m r hm op
      rw [List.map_cons, List.foldlM_cons, List.foldlM_cons, htv]
      cases ha : LdState.apply kind c normal ⟨m.views, r⟩ (op.toValue m mass) with
      | error e => rw [ha] at h1; simp only at h1; rw [h1]; simp only [error_bind]
      | ok s =>
        rw [ha] at h1
        obtain ⟨m1, g1, g2, g3, g4⟩ := h1
        rw [g1]
        simp only [ok_bind]
        have hi := ih m1 s.rng (fun src k ow h => hops src k ow (by simp [h])) g3
          (fun a ha => ⟨(g4 a (hf a ha).1).1, (g4 a (hf a ha).1).2.trans (hf a ha).2⟩)
        rw [g2] at hi
        exact hi
  have hm0 : m0.WF := ⟨by rw [h0]; exact List.nodup_nil, by rw [h0]; simp, by rw [h0]; simp, by rw [h0]; simp⟩
  have h := gen ops m0 r hops hm0 (fun a ha => ⟨⟨ha, by rw [h0]; simp⟩, rfl⟩)
  have hv : m0.views = [] := by unfold Mem.views; rw [h0]; rfl
  rw [hv] at h
  exact h

end
end

/-- What a memory looks like: position, momentum, energy, force of each particle and the references. -/
def memView (s : Except PyErr (Mem Int 1 × Nat)) : Option (List (List Int × List Nat)) :=
  match s with
  | .ok s => some (s.1.list.map (fun o => ([s.1.arr (s.1.obj o).pos 0, s.1.arr (s.1.obj o).mom 0,
      (s.1.obj o).energy, s.1.arr (s.1.obj o).forces 0], [(s.1.obj o).pos, (s.1.obj o).mom, (s.1.obj o).forces])))
  | .error _ => none

-- both particles are created from the same array, copied over each other and moved
example : memView ([HOp.addArr 0 (-1) false, .addArr 0 (-1) false, .step, .moves [(0, 1)], .step].foldlM
    (heapApply .bussi (intCfg none []) intNormal 1)
    ((⟨fun _ _ => 5, fun _ => ⟨0, 0, 0, 0, 0, 0⟩, 1, 0, []⟩ : Mem Int 1), 0)) =
  some [([15, 0, 225, -30], [1, 18, 17]), ([19, 0, 361, -38], [13, 21, 20])] := by decide

end Bdld
