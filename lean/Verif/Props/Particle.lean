import Verif.Model.Particle
import Verif.Lemmas.Except

/-
C140: particles have as many momentum components as position components.
-/

namespace Bdld

variable {F : Type} [Zero F]

/-- The numbers of an argument that is a number, a list or an array of one dimension. -/
def Spec.VecArg.IsVec : VecArg F → List F → Prop
  | .num x, l => l = [x]
  | .list m, l => l = m
  | .tuple _, _ => False
  | .array a, l => a = ⟨[l.length], l⟩

omit [Zero F] in
theorem isVec_toArray {v : VecArg F} {l : List F} (h : Spec.VecArg.IsVec v l) : v.toArray = ⟨[l.length], l⟩ := by
  cases v with
  | num x => subst h; rfl
  | list m => subst h; rfl
  | tuple m => exact h.elim
  | array a => exact h

/-- C140: a particle without momentum is created for every number, list and one-dimensional array; its momentum is
zero in every dimension. -/
theorem particle_no_momentum {pos : VecArg F} {x : List F} (hx : Spec.VecArg.IsVec pos x) (mass : F) :
    pyParticle pos none mass =
      .ok { pos := ⟨[x.length], x⟩, mom := ⟨[x.length], List.replicate x.length 0⟩, mass := mass } := by
  simp only [pyParticle, PyParticle.initMomentum, isVec_toArray hx, Nd.len, PyParticle.checkDims, ok_bind,
    ne_eq, not_true_eq_false, if_false]
  rfl

/-- C140: a particle with momentum is created exactly if there are as many momentum components as position
components; otherwise there is a `ValueError`. -/
theorem particle_momentum {pos mom : VecArg F} {x p : List F} (hx : Spec.VecArg.IsVec pos x)
    (hp : Spec.VecArg.IsVec mom p) (mass : F) :
    pyParticle pos (some mom) mass =
      if x.length = p.length then .ok { pos := ⟨[x.length], x⟩, mom := ⟨[p.length], p⟩, mass := mass }
      else .error .valueError := by
  simp only [pyParticle, PyParticle.initMomentum, isVec_toArray hx, isVec_toArray hp, Nd.len, PyParticle.checkDims,
    ok_bind, ne_eq]
  by_cases h : x.length = p.length
  · simp only [h, not_true_eq_false, if_false, if_true]; rfl
  · simp only [h, not_false_eq_true, if_true, if_false]; rfl

/-- C140: every particle that exists has arrays of the same length as position and momentum, whatever the
arguments. -/
theorem particle_lengths {pos : VecArg F} {mom : Option (VecArg F)} {mass : F} {q : PyParticle F}
    (h : pyParticle pos mom mass = .ok q) :
    q.pos = pos.toArray ∧ q.mass = mass ∧ ∃ n, q.pos.len = .ok n ∧ q.mom.len = .ok n := by
  have hc : ∀ r : PyParticle F, r.checkDims = .ok () → ∃ n, r.pos.len = .ok n ∧ r.mom.len = .ok n := by
    intro r hr
    obtain ⟨n, hn, hr⟩ := bind_ok hr
    obtain ⟨m, hm, hr⟩ := bind_ok hr
    by_cases hnm : n = m
    · exact ⟨n, hn, hnm ▸ hm⟩
    · rw [if_pos hnm] at hr; cases hr
  unfold pyParticle at h
  cases mom with
  | none =>
    simp only [PyParticle.initMomentum] at h
    rcases hl : pos.toArray.len with e | n
    · simp only [hl] at h; cases h
    · simp only [hl] at h
      rcases hd : PyParticle.checkDims ({ pos := pos.toArray, mom := ⟨[n], List.replicate n 0⟩, mass := mass } :
        PyParticle F) with e | u
      · rw [hd] at h; cases h
      · rw [hd] at h
        obtain rfl := Except.ok.inj h
        exact ⟨rfl, rfl, hc _ hd⟩
  | some m =>
    simp only [PyParticle.initMomentum] at h
    rcases hd : PyParticle.checkDims ({ pos := pos.toArray, mom := m.toArray, mass := mass } :
      PyParticle F) with e | u
    · rw [hd] at h; cases h
    · rw [hd] at h
      obtain rfl := Except.ok.inj h
      exact ⟨rfl, rfl, hc _ hd⟩

/-- C140: a number is the same as a list with one entry. -/
theorem particle_scalar (x : F) (mom : Option (VecArg F)) (mass : F) :
    pyParticle (.num x) mom mass = pyParticle (.list [x]) mom mass := rfl

theorem particle_scalar_mom (pos : VecArg F) (x : F) (mass : F) :
    pyParticle pos (some (.num x)) mass = pyParticle pos (some (.list [x])) mass := rfl

/-- C140: giving a particle a new momentum of the right size changes nothing else. -/
theorem init_momentum_ok {q : PyParticle F} {x p : List F} (hq : q.pos = ⟨[x.length], x⟩) {mom : VecArg F}
    (hp : Spec.VecArg.IsVec mom p) (hl : x.length = p.length) :
    q.initMomentum (some mom) = ({ q with mom := ⟨[p.length], p⟩ }, .ok ()) := by
  simp only [PyParticle.initMomentum, isVec_toArray hp, PyParticle.checkDims, hq, Nd.len, ok_bind, hl, ne_eq,
    not_true_eq_false, if_false]
  rfl

/-- C140: a momentum of the wrong size is reported, but the particle has it nevertheless. -/
theorem init_momentum_wrong {q : PyParticle F} {x p : List F} (hq : q.pos = ⟨[x.length], x⟩) {mom : VecArg F}
    (hp : Spec.VecArg.IsVec mom p) (hl : x.length ≠ p.length) :
    q.initMomentum (some mom) = ({ q with mom := ⟨[p.length], p⟩ }, .error .valueError) := by
  simp only [PyParticle.initMomentum, isVec_toArray hp, PyParticle.checkDims, hq, Nd.len, ok_bind, ne_eq, hl,
    not_false_eq_true, if_true]
  rfl

/-- C140: the particles created by `add_particle` are those of `newParticle`, on which everything else is built. -/
theorem create_particle {d : Nat} [Add F] [Sub F] [Mul F] [Div F] [Neg F] [LT F] [DecidableLT F]
    (c : LdCfg F d) (pos : List F) (mass : F) (h : pos.length = d) :
    createParticle d (.list pos) mass = .ok {
      pos := ⟨[d], List.ofFn (newParticle c (fun k => pos.get (k.cast h.symm)) mass).pos⟩
      mom := ⟨[d], List.ofFn (newParticle c (fun k => pos.get (k.cast h.symm)) mass).mom⟩
      mass := (newParticle c (fun k => pos.get (k.cast h.symm)) mass).mass } := by
  subst h
  have h1 : createParticle pos.length (.list pos) mass = pyParticle (.list pos) none mass := by
    simp only [createParticle, VecArg.len, ok_bind, ne_eq, not_true_eq_false, if_false]
  have hv : Spec.VecArg.IsVec (.list pos) pos := rfl
  rw [h1, particle_no_momentum hv]
  simp [newParticle, List.ofFn_const]

/-- Positions of another size are reported, numbers are no positions. -/
theorem create_particle_wrong (d : Nat) (pos : List F) (mass : F) (h : pos.length ≠ d) :
    createParticle d (.list pos) mass = .error .valueError := by
  simp only [createParticle, VecArg.len, ok_bind, ne_eq, h, not_false_eq_true, if_true]
  rfl

theorem create_particle_number (d : Nat) (x mass : F) : createParticle d (.num x) mass = .error .typeError := rfl

/-! ### Examples, the first ones are those of `test_particle.py` -/

example : pyParticle (F := Int) (.num 0) (some (.num 1)) 3 = .ok ⟨⟨[1], [0]⟩, ⟨[1], [1]⟩, 3⟩ := by decide
example : pyParticle (F := Int) (.num 0) none 1 = .ok ⟨⟨[1], [0]⟩, ⟨[1], [0]⟩, 1⟩ := by decide
example : pyParticle (F := Int) (.list [0, 1]) (some (.list [1])) 1 = .error .valueError := by decide
example : pyParticle (F := Int) (.list [4, 5]) (some (.array ⟨[2], [6, 7]⟩)) 2 =
    .ok ⟨⟨[2], [4, 5]⟩, ⟨[2], [6, 7]⟩, 2⟩ := by decide

/-- Outside of the annotated types: a tuple is one row of a matrix, a momentum of one component belongs to it; an
array without dimensions has no length. -/
example : pyParticle (F := Int) (.tuple [4, 5]) none 1 = .ok ⟨⟨[1, 2], [4, 5]⟩, ⟨[1], [0]⟩, 1⟩ := by decide
example : pyParticle (F := Int) (.array ⟨[], [4]⟩) none 1 = .error .typeError := by decide

/-- The particle after the reported error. -/
example : PyParticle.initMomentum (F := Int) ⟨⟨[2], [4, 5]⟩, ⟨[2], [0, 0]⟩, 1⟩ (some (.num 3)) =
    (⟨⟨[2], [4, 5]⟩, ⟨[1], [3]⟩, 1⟩, .error .valueError) := by decide

end Bdld
