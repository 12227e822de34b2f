import Verif.Model.Potential
import Verif.Model.BirthDeath

/-
Model of the two Langevin integrators, `bdld/actions/bussi_parinello_ld.py` and
`bdld/actions/overdamped_ld.py`, and of `bdld/particle.py`. Law-free: the number type `F` only has the
operations, so the definitions also describe IEEE doubles. The constants for exact real arithmetic are in
`Model/LangevinReal.lean`.

Particles are values here. That different entries of the particle list never share storage, so that this is
justified, is shown in `Model/Heap.lean`.
-/

namespace Bdld

/-- `BpldParticle` (`bussi_parinello_ld.py:19-32`) and `LDParticle` (`overdamped_ld.py:16-27`); the latter has
no `c2`. -/
structure LdParticle (F : Type) (d : Nat) where
  pos : Fin d → F
  mom : Fin d → F
  mass : F
  energy : F
  forces : Fin d → F
  c2 : F

/-- `rng.standard_normal(n_dim)`. -/
abbrev NormalOps (R F : Type) (d : Nat) := R → (Fin d → F) × R

/-- Attributes of an integrator that do not change during a simulation. `half` is the literal 0.5, `c1` the
first thermostat constant, `c2of` the second one as function of the mass, `noiseFactor` the factor of the
overdamped dynamics. -/
structure LdCfg (F : Type) (d : Nat) where
  pot : Potential F d
  dt : F
  kt : F
  half : F
  c1 : F
  c2of : F → F
  noiseFactor : F

/-- Which of the two classes is used. -/
inductive LdKind where
  | bussi
  | overdamped
deriving DecidableEq, Repr

section
variable {F : Type} {d : Nat} [Add F] [Sub F] [Mul F] [Div F] [Neg F] [LT F] [DecidableLT F]

/-- `self.c1 * p.mom + p.c2 * noise`, `bussi_parinello_ld.py:89` and 99. -/
def thermostat (c1 c2 : F) (mom noise : Fin d → F) : Fin d → F := fun k => c1 * mom k + c2 * noise k

/-- `p.mom += 0.5 * p.forces * self.dt`, `bussi_parinello_ld.py:91` and 97. -/
def kick (half dt : F) (mom forces : Fin d → F) : Fin d → F := fun k => mom k + half * forces k * dt

/-- `p.pos += (p.mom / p.mass) * self.dt`, `bussi_parinello_ld.py:92`. -/
def drift (dt mass : F) (pos mom : Fin d → F) : Fin d → F := fun k => pos k + mom k / mass * dt

/-- The second part of a step, `bussi_parinello_ld.py:95-99`, after the boundary condition. -/
def bussiFinish (c : LdCfg F d) (noise : Fin d → F) (p : LdParticle F d) (pos mom : Fin d → F) :
    LdParticle F d :=
  let ef := c.pot.evaluate pos
  { p with
    pos := pos
    energy := ef.1
    forces := ef.2
    mom := thermostat c.c1 p.c2 (kick c.half c.dt mom ef.2) noise }

/-- The loop body of `BussiParinelloLD.run` for one particle, `bussi_parinello_ld.py:87-99`, with the two
noise vectors. -/
def bussiStep (c : LdCfg F d) (noise1 noise2 : Fin d → F) (p : LdParticle F d) :
    Except PyErr (LdParticle F d) := do
  let mom := kick c.half c.dt (thermostat c.c1 p.c2 p.mom noise1) p.forces
  let pos := drift c.dt p.mass p.pos mom
  let pm ← c.pot.applyBc pos mom
  return bussiFinish c noise2 p pm.1 pm.2

/-- The loop body of `OverdampedLD.run` for one particle, `overdamped_ld.py:76-81`. -/
def overdampedStep (c : LdCfg F d) (noise : Fin d → F) (p : LdParticle F d) :
    Except PyErr (LdParticle F d) := do
  let pos := fun k => p.pos k + (c.dt * p.forces k + c.noiseFactor * noise k)
  let pm ← c.pot.applyBc pos p.mom
  let ef := c.pot.evaluate pm.1
  return { p with
    pos := pm.1
    mom := pm.2
    energy := ef.1
    forces := ef.2 }

/-- One particle with the generator: two draws per particle for `BussiParinelloLD`, one for
`OverdampedLD`. -/
def particleStep {R : Type} (kind : LdKind) (c : LdCfg F d) (normal : NormalOps R F d)
    (p : LdParticle F d) (r : R) : Except PyErr (LdParticle F d × R) :=
  match kind with
  | .bussi => do
    let n1 := normal r
    let n2 := normal n1.2
    let p' ← bussiStep c n1.1 n2.1 p
    return (p', n2.2)
  | .overdamped => do
    let n1 := normal r
    let p' ← overdampedStep c n1.1 p
    return (p', n1.2)

/-- `for p in self.particles` in `run` (`bussi_parinello_ld.py:87-99`, `overdamped_ld.py:76-81`). -/
def ldLoop {R : Type} (kind : LdKind) (c : LdCfg F d) (normal : NormalOps R F d) :
    List (LdParticle F d) → R → Except PyErr (List (LdParticle F d) × R)
  | [], r => .ok ([], r)
  | p :: ps, r => do
    let x ← particleStep kind c normal p r
    let xs ← ldLoop kind c normal ps x.2
    return (x.1 :: xs.1, xs.2)

/-- Mutable state of the integrator. -/
structure LdState (F : Type) (d : Nat) (R : Type) where
  particles : List (LdParticle F d)
  rng : R

/-- `run`. -/
def LdState.run {R : Type} (kind : LdKind) (c : LdCfg F d) (normal : NormalOps R F d) (s : LdState F d R) :
    Except PyErr (LdState F d R) := do
  let x ← ldLoop kind c normal s.particles s.rng
  return ⟨x.1, x.2⟩

/-- The first `n` steps of a simulation consisting only of Langevin dynamics. -/
def LdState.iter {R : Type} (kind : LdKind) (c : LdCfg F d) (normal : NormalOps R F d) :
    Nat → LdState F d R → Except PyErr (LdState F d R)
  | 0, s => .ok s
  | n + 1, s => do
    let s' ← LdState.iter kind c normal n s
    s'.run kind c normal

/-- Python `l.insert(i, x)`: negative indices count from the end, everything is clamped. -/
def pyInsert {α : Type} (l : List α) (i : Int) (x : α) : List α :=
  l.take (sliceBound l.length i) ++ x :: l.drop (sliceBound l.length i)

/-- Python `del l[i]`. -/
def pyDelItem {α : Type} (l : List α) (i : Int) : Except PyErr (List α) :=
  if 0 ≤ i ∧ i < l.length then .ok (l.eraseIdx i.toNat)
  else if i < 0 ∧ 0 ≤ i + l.length then .ok (l.eraseIdx (i + l.length).toNat)
  else .error .indexError

/-- The particle created by `add_particle` for a position of the right dimension:
`bussi_parinello_ld.py:122-124` with `Particle.__init__`, `particle.py:15-46`. -/
def newParticle [Zero F] (c : LdCfg F d) (pos : Fin d → F) (mass : F) : LdParticle F d :=
  let ef := c.pot.evaluate pos
  { pos := pos
    mom := fun _ => 0
    mass := mass
    energy := ef.1
    forces := ef.2
    c2 := c.c2of mass }

/-- `add_particle`, `bussi_parinello_ld.py:101-131`, `overdamped_ld.py:83-112`. -/
def LdState.addParticle [Zero F] {R : Type} (c : LdCfg F d) (s : LdState F d R) (pos : List F) (mass : F)
    (partnum : Int) (overwrite : Bool) : Except PyErr (LdState F d R) :=
  if h : pos.length = d then
    let p := newParticle c (fun k => pos.get (k.cast h.symm)) mass
    if overwrite then do
      let ps ← pySetItem s.particles partnum p
      return { s with particles := ps }
    else if partnum = -1 then .ok { s with particles := s.particles ++ [p] }
    else .ok { s with particles := pyInsert s.particles partnum p }
  else .error .valueError

/-- `remove_particle`, `bussi_parinello_ld.py:133-138`. -/
def LdState.removeParticle {R : Type} (s : LdState F d R) (partnum : Int) : Except PyErr (LdState F d R) := do
  let ps ← pyDelItem s.particles partnum
  return { s with particles := ps }

/-- The operations that change the particle list during a simulation: a Langevin step, the moves of a
birth-death step, adding and removing particles. -/
inductive LdOp (F : Type) where
  | step
  | moves (events : List (Nat × Nat))
  | add (pos : List F) (mass : F) (partnum : Int) (overwrite : Bool)
  | remove (partnum : Int)

/-- Effect of an operation. -/
def LdState.apply [Zero F] {R : Type} (kind : LdKind) (c : LdCfg F d) (normal : NormalOps R F d)
    (s : LdState F d R) : LdOp F → Except PyErr (LdState F d R)
  | .step => s.run kind c normal
  | .moves events => do
    let ps ← performMoves s.particles events
    return { s with particles := ps }
  | .add pos mass partnum overwrite => s.addParticle c pos mass partnum overwrite
  | .remove partnum => s.removeParticle partnum

end

end Bdld
