import Verif.Model.Langevin

/-
Memory model of the particles: arrays and particle objects live at addresses, the particle list contains addresses
of objects, and the statements of the integrators and of the birth-death moves change arrays in place or bind
attributes to new arrays exactly as the Python code does. `Props/Heap.lean` shows that this memory model and the
value model of `Model/Langevin.lean` agree.

Simplified: temporary arrays that no attribute is bound to are not allocated, nor are the arrays of length 0 that
the constructors bind before the final value. `Potential.evaluate` returns a new force array (all potentials of
the package do). The particle list itself is one object shared by all actions: no code rebinds the attribute
`particles`.
-/

namespace Bdld

/-- Attributes of a particle object; `pos`, `mom`, `forces` are references to arrays. -/
structure HObj (F : Type) where
  pos : Nat
  mom : Nat
  forces : Nat
  mass : F
  energy : F
  c2 : F

/-- Memory: arrays, particle objects, the next free addresses, and the particle list (of references). -/
structure Mem (F : Type) (d : Nat) where
  arr : Nat → Fin d → F
  obj : Nat → HObj F
  nArr : Nat
  nObj : Nat
  list : List Nat

section
variable {F : Type} {d : Nat}

/-- In-place change of an array, `a[:] = v`. -/
def Mem.write (m : Mem F d) (a : Nat) (v : Fin d → F) : Mem F d := { m with arr := Function.update m.arr a v }

/-- A new array; its address is `m.nArr`. -/
def Mem.alloc (m : Mem F d) (v : Fin d → F) : Mem F d :=
  { m with
    arr := Function.update m.arr m.nArr v
    nArr := m.nArr + 1 }

/-- Binding of attributes of an object. -/
def Mem.setObj (m : Mem F d) (o : Nat) (x : HObj F) : Mem F d := { m with obj := Function.update m.obj o x }

/-- `p.mom = v` with a new array. -/
def Mem.newMom (m : Mem F d) (o : Nat) (v : Fin d → F) : Mem F d :=
  (m.alloc v).setObj o { m.obj o with mom := m.nArr }

/-- `p.energy, p.forces = ...` with a new array. -/
def Mem.newForces (m : Mem F d) (o : Nat) (ef : F × (Fin d → F)) : Mem F d :=
  (m.alloc ef.2).setObj o { m.obj o with
    forces := m.nArr
    energy := ef.1 }

section
variable [LT F] [DecidableLT F]

/-- Body of the loop of the reflective boundary condition with the arrays at addresses `ap`, `am`. -/
def heapReflectStep [Neg F] (ranges : List (F × F)) (ap am : Nat) (m : Mem F d) (i : Fin d) :
    Except PyErr (Mem F d) :=
  match ranges[i.val]? with
  | none => .error .indexError
  | some r =>
    if m.arr ap i < r.1 then
      let m1 := m.write ap (Function.update (m.arr ap) i r.1)
      .ok (m1.write am (Function.update (m1.arr am) i (-(m1.arr am i))))
    else if r.2 < m.arr ap i then
      let m1 := m.write ap (Function.update (m.arr ap) i r.2)
      .ok (m1.write am (Function.update (m1.arr am) i (-(m1.arr am i))))
    else .ok m

/-- Body of the loop of the periodic boundary condition. -/
def heapPeriodicStep [Add F] [Sub F] (ranges : List (F × F)) (ap : Nat) (m : Mem F d) (i : Fin d) :
    Except PyErr (Mem F d) :=
  match ranges[i.val]? with
  | none => .error .indexError
  | some r =>
    if m.arr ap i < r.1 then .ok (m.write ap (Function.update (m.arr ap) i (m.arr ap i + (r.2 - r.1))))
    else if r.2 < m.arr ap i then .ok (m.write ap (Function.update (m.arr ap) i (m.arr ap i - (r.2 - r.1))))
    else .ok m

/-- `self.pot.apply_boundary_condition(p.pos, p.mom)`. -/
def heapBc [Add F] [Sub F] [Neg F] (pot : Potential F d) (ap am : Nat) (m : Mem F d) : Except PyErr (Mem F d) :=
  match pot.bc with
  | none => .ok m
  | some .reflective => (List.finRange d).foldlM (heapReflectStep pot.ranges ap am) m
  | some .periodic => (List.finRange d).foldlM (heapPeriodicStep pot.ranges ap) m

end

variable [Add F] [Sub F] [Mul F] [Div F] [Neg F] [LT F] [DecidableLT F]

/-- `bussi_parinello_ld.py:95-99`: energy and forces, second kick (in place), second thermostat step (new array). -/
def heapBussiFinish (c : LdCfg F d) (n2 : Fin d → F) (o : Nat) (m : Mem F d) : Mem F d :=
  let m1 := m.newForces o (c.pot.evaluate (m.arr (m.obj o).pos))
  let m2 := m1.write (m1.obj o).mom (kick c.half c.dt (m1.arr (m1.obj o).mom) (m1.arr (m1.obj o).forces))
  m2.newMom o (thermostat c.c1 (m2.obj o).c2 (m2.arr (m2.obj o).mom) n2)

/-- Loop body of `BussiParinelloLD.run` for the object at address `o`, `bussi_parinello_ld.py:87-99`: the
thermostat binds a new momentum array, kicks and drift are in place. -/
def heapBussi (c : LdCfg F d) (n1 n2 : Fin d → F) (o : Nat) (m : Mem F d) : Except PyErr (Mem F d) := do
  let m1 := m.newMom o (thermostat c.c1 (m.obj o).c2 (m.arr (m.obj o).mom) n1)
  let m2 := m1.write (m1.obj o).mom (kick c.half c.dt (m1.arr (m1.obj o).mom) (m1.arr (m1.obj o).forces))
  let m3 := m2.write (m2.obj o).pos (drift c.dt (m2.obj o).mass (m2.arr (m2.obj o).pos) (m2.arr (m2.obj o).mom))
  let m4 ← heapBc c.pot (m3.obj o).pos (m3.obj o).mom m3
  return heapBussiFinish c n2 o m4

/-- Loop body of `OverdampedLD.run`, `overdamped_ld.py:76-81`. -/
def heapOverdamped (c : LdCfg F d) (n : Fin d → F) (o : Nat) (m : Mem F d) : Except PyErr (Mem F d) := do
  let m1 := m.write (m.obj o).pos
    (fun k => m.arr (m.obj o).pos k + (c.dt * m.arr (m.obj o).forces k + c.noiseFactor * n k))
  let m2 ← heapBc c.pot (m1.obj o).pos (m1.obj o).mom m1
  return m2.newForces o (c.pot.evaluate (m2.arr (m2.obj o).pos))

/-- One particle with the generator. -/
def heapParticleStep {R : Type} (kind : LdKind) (c : LdCfg F d) (normal : NormalOps R F d) (o : Nat)
    (m : Mem F d) (r : R) : Except PyErr (Mem F d × R) :=
  match kind with
  | .bussi => do
    let n1 := normal r
    let n2 := normal n1.2
    let m' ← heapBussi c n1.1 n2.1 o m
    return (m', n2.2)
  | .overdamped => do
    let n1 := normal r
    let m' ← heapOverdamped c n1.1 o m
    return (m', n1.2)

/-- `for p in self.particles`. -/
def heapLoop {R : Type} (kind : LdKind) (c : LdCfg F d) (normal : NormalOps R F d) :
    List Nat → Mem F d → R → Except PyErr (Mem F d × R)
  | [], m, r => .ok (m, r)
  | o :: os, m, r => do
    let x ← heapParticleStep kind c normal o m r
    heapLoop kind c normal os x.1 x.2

/-- A new particle object with new arrays. Its address is `m.nObj`. -/
def Mem.newObj (m : Mem F d) (pos mom forces : Fin d → F) (mass energy c2 : F) : Mem F d :=
  let m1 := ((m.alloc pos).alloc mom).alloc forces
  { m1 with
    obj := Function.update m.obj m.nObj ⟨m.nArr, m.nArr + 1, m.nArr + 2, mass, energy, c2⟩
    nObj := m.nObj + 1 }

/-- `copy.deepcopy(p)` of the object at address `o`: a new object, all arrays are copied. -/
def Mem.deepcopy (m : Mem F d) (o : Nat) : Mem F d :=
  let p := m.obj o
  m.newObj (m.arr p.pos) (m.arr p.mom) (m.arr p.forces) p.mass p.energy p.c2

/-- One move of `perform_moves`, `birth_death.py:264-265`. -/
def heapMove (m : Mem F d) (e : Nat × Nat) : Except PyErr (Mem F d) :=
  match m.list[e.1]? with
  | none => .error .indexError
  | some o =>
    if e.2 < m.list.length then .ok { m.deepcopy o with list := m.list.set e.2 m.nObj }
    else .error .indexError

/-- `add_particle` for a position of the right dimension with coordinates `pos`: `np.array(pos, dtype=float)`
makes a copy. -/
def heapAdd [Zero F] (c : LdCfg F d) (m : Mem F d) (pos : Fin d → F) (mass : F) (partnum : Int) (overwrite : Bool) :
    Except PyErr (Mem F d) := do
  let ef := c.pot.evaluate pos
  let m1 := m.newObj pos (fun _ => 0) ef.2 mass ef.1 (c.c2of mass)
  if overwrite then
    let l ← pySetItem m.list partnum m.nObj
    return { m1 with list := l }
  else if partnum = -1 then return { m1 with list := m.list ++ [m.nObj] }
  else return { m1 with list := pyInsert m.list partnum m.nObj }

/-- Operations on the memory. `addArr src …` adds a particle at the position stored in the array at address `src`,
which belongs to the caller (e.g. a row of the initial positions used for several particles). -/
inductive HOp where
  | step
  | moves (events : List (Nat × Nat))
  | addArr (src : Nat) (partnum : Int) (overwrite : Bool)
  | remove (partnum : Int)

/-- Effect of an operation. New particles get the given mass. -/
def heapApply [Zero F] {R : Type} (kind : LdKind) (c : LdCfg F d) (normal : NormalOps R F d) (mass : F)
    (s : Mem F d × R) : HOp → Except PyErr (Mem F d × R)
  | .step => heapLoop kind c normal s.1.list s.1 s.2
  | .moves events => do
    let m ← events.foldlM heapMove s.1
    return (m, s.2)
  | .addArr src partnum overwrite => do
    let m ← heapAdd c s.1 (s.1.arr src) mass partnum overwrite
    return (m, s.2)
  | .remove partnum => do
    let l ← pyDelItem s.1.list partnum
    return ({ s.1 with list := l }, s.2)

end

end Bdld
