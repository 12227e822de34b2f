import Verif.Model.Grid
import Verif.Model.Langevin

/-
Model of the class `Particle`, `bdld/particle.py`. `Model/Langevin.lean` has the particles of the integrators with
positions of the right dimension; here the constructor is modelled for all arguments. `Props/Particle.lean` shows
that the two fit together.
-/

namespace Bdld

/-- What can be given as position or momentum: a number, a list, a tuple, an array of numpy with any shape.
Simplified: lists and tuples contain numbers only. -/
inductive VecArg (F : Type) where
  | num (x : F)
  | list (l : List F)
  | tuple (l : List F)
  | array (a : Nd F)
deriving DecidableEq, Repr

/-- `if not isinstance(x, (list, np.ndarray)): x = [x]` and `np.array(x, dtype=float)`, `particle.py:28-30` and
41-43: a tuple is no list, it becomes the only row of a matrix. -/
def VecArg.toArray {F : Type} : VecArg F → Nd F
  | .num x => ⟨[1], [x]⟩
  | .list l => ⟨[l.length], l⟩
  | .tuple l => ⟨[1, l.length], l⟩
  | .array a => a

/-- `len(a)` for an array of numpy: number of entries of the first dimension, `TypeError` for an array without
dimensions. -/
def Nd.len {F : Type} (a : Nd F) : Except PyErr Nat :=
  match a.shape with
  | [] => .error .typeError
  | n :: _ => .ok n

/-- Attributes of a `Particle`, `particle.py:30-32`. -/
structure PyParticle (F : Type) where
  pos : Nd F
  mom : Nd F
  mass : F
deriving DecidableEq, Repr

/-- `len(self.pos) != len(self.mom)`, `particle.py:44-48`. -/
def PyParticle.checkDims {F : Type} (p : PyParticle F) : Except PyErr Unit := do
  let n ← p.pos.len
  let m ← p.mom.len
  if n ≠ m then throw .valueError else return ()

/-- `init_momentum`, `particle.py:35-48`: the particle afterwards and whether an exception was raised. The attribute
is set before the dimensions are compared. -/
def PyParticle.initMomentum {F : Type} [Zero F] (p : PyParticle F) (mom : Option (VecArg F)) :
    PyParticle F × Except PyErr Unit :=
  match mom with
  | none =>
    match p.pos.len with
    | .error e => (p, .error e)
    | .ok n =>
      let q := { p with mom := ⟨[n], List.replicate n 0⟩ }
      (q, q.checkDims)
  | some m =>
    let q := { p with mom := m.toArray }
    (q, q.checkDims)

/-- `Particle(pos, mom, mass)`, `particle.py:15-33`. No object is created if an exception is raised. -/
def pyParticle {F : Type} [Zero F] (pos : VecArg F) (mom : Option (VecArg F)) (mass : F) :
    Except PyErr (PyParticle F) :=
  let r := PyParticle.initMomentum { pos := pos.toArray, mom := ⟨[0], []⟩, mass := mass } mom
  r.2.map fun _ => r.1

/-- `len(pos)` of the argument, `bussi_parinello_ld.py:116`. -/
def VecArg.len {F : Type} : VecArg F → Except PyErr Nat
  | .num _ => .error .typeError
  | .list l => .ok l.length
  | .tuple l => .ok l.length
  | .array a => a.len

/-- The start of `add_particle`, `bussi_parinello_ld.py:116-122`, `overdamped_ld.py:98-104`: comparison of the
dimensions and creation of the particle, which has energy 0.0, no forces and `c2` 0.0 until the next lines. -/
def createParticle {F : Type} [Zero F] (nDim : Nat) (pos : VecArg F) (mass : F) : Except PyErr (PyParticle F) := do
  let n ← pos.len
  if n ≠ nDim then throw .valueError
  pyParticle pos none mass

end Bdld
