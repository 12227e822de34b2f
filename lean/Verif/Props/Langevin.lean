import Verif.Lemmas.Langevin
import Verif.Spec.Boundary
import Verif.Props.Potential
import Mathlib.Data.Fintype.Pi

/-
Properties of the Langevin integrators that need no arithmetic laws: C38, C42, C43, C44 (and C41 in part).
-/

namespace Bdld
open Spec

section
variable {F : Type} {d : Nat} [Add F] [Sub F] [Mul F] [Div F] [Neg F]

section law_free
variable [LT F] [DecidableLT F]

/-! ### C38 -/

/-- Stored energy and forces belong to the stored position. -/
def Consistent (c : LdCfg F d) (p : LdParticle F d) : Prop := (p.energy, p.forces) = c.pot.evaluate p.pos

/-- A property of single particles that new particles have, and that a step keeps, holds during every
simulation. -/
theorem apply_inv [Zero F] {R : Type} {kind : LdKind} {c : LdCfg F d} {normal : NormalOps R F d}
    (Q : LdParticle F d → Prop) (hnew : ∀ pos mass, Q (newParticle c pos mass))
    (hstep : ∀ noise p p', walkerStep kind c noise p = .ok p' → Q p → Q p') {s s' : LdState F d R} {op : LdOp F}
    (h : s.apply kind c normal op = .ok s') (hs : ∀ p ∈ s.particles, Q p) : ∀ p ∈ s'.particles, Q p := by
  intro p hp
  cases op with
  | step =>
    obtain ⟨q, hq, noise, hw⟩ := run_mem (show s.run kind c normal = .ok s' from h) p hp
    exact hstep noise q p hw (hs q hq)
  | moves es =>
    unfold LdState.apply at h
    cases hm : performMoves s.particles es with
    | error e => simp only [hm, error_bind] at h; cases h
    | ok ps =>
      simp only [hm, ok_bind, pure_eq_ok] at h
      injection h with h
      subst h
      exact hs p ((performMoves_ok es hm).mem p hp)
  | add pos mass k ow =>
    unfold LdState.apply LdState.addParticle at h
    by_cases hd : pos.length = d
    · simp only [dif_pos hd] at h
      cases ow with
      | true =>
        simp only [if_true] at h
        cases hm : pySetItem s.particles k (newParticle c (fun j => pos.get (j.cast hd.symm)) mass) with
        | error e => simp only [hm, error_bind] at h; cases h
        | ok ps =>
          simp only [hm, ok_bind, pure_eq_ok] at h
          injection h with h
          subst h
          rcases mem_pySetItem hm hp with h1 | rfl
          · exact hs p h1
          · exact hnew _ _
      | false =>
        simp only [Bool.false_eq_true, if_false] at h
        by_cases hk : k = -1
        · rw [if_pos hk] at h
          injection h with h
          subst h
          rcases List.mem_append.1 hp with h1 | h1
          · exact hs p h1
          · rw [List.mem_singleton.1 h1]; exact hnew _ _
        · rw [if_neg hk] at h
          injection h with h
          subst h
          rcases mem_pyInsert hp with h1 | rfl
          · exact hs p h1
          · exact hnew _ _
    · simp only [dif_neg hd] at h; cases h
  | remove k =>
    unfold LdState.apply LdState.removeParticle at h
    cases hm : pyDelItem s.particles k with
    | error e => simp only [hm, error_bind] at h; cases h
    | ok ps =>
      simp only [hm, ok_bind, pure_eq_ok] at h
      injection h with h
      subst h
      exact hs p (mem_pyDelItem hm hp)

/-- C38: during every simulation, whatever sequence of Langevin steps, birth-death moves, additions and removals
it consists of, stored energies and forces belong to the stored positions. The simulation starts without
particles, as `__init__` does. -/
theorem ld_consistent [Zero F] {R : Type} (kind : LdKind) (c : LdCfg F d) (normal : NormalOps R F d) (r : R)
    (ops : List (LdOp F)) (s : LdState F d R)
    (h : ops.foldlM (LdState.apply kind c normal) ⟨[], r⟩ = .ok s) :
    ∀ p ∈ s.particles, Consistent c p :=
  foldlM_ok_inv (LdState.apply kind c normal) (fun _ s => ∀ p ∈ s.particles, Consistent c p) ops [] _ _
    (fun _ _ _ _ _ hs h => apply_inv _ (fun _ _ => rfl) (fun _ _ _ hw _ => (walkerStep_ok hw).2.1) h hs)
    (fun p hp => absurd hp (by simp)) h

/-- C38, C39: the thermostat constant stored in each particle is always the one belonging to its mass. -/
theorem ld_c2 [Zero F] {R : Type} (kind : LdKind) (c : LdCfg F d) (normal : NormalOps R F d) (r : R)
    (ops : List (LdOp F)) (s : LdState F d R)
    (h : ops.foldlM (LdState.apply kind c normal) ⟨[], r⟩ = .ok s) :
    ∀ p ∈ s.particles, p.c2 = c.c2of p.mass :=
  foldlM_ok_inv (LdState.apply kind c normal) (fun _ s => ∀ p ∈ s.particles, p.c2 = c.c2of p.mass) ops [] _ _
    (fun _ _ _ _ _ hs h => apply_inv (fun p => p.c2 = c.c2of p.mass) (fun _ _ => rfl)
      (fun _ p p' hw hq => by obtain ⟨_, _, h1, h2⟩ := walkerStep_ok hw; rw [h1, h2, hq]) h hs)
    (fun p hp => absurd hp (by simp)) h

end law_free
end

/-- A configuration over the integers, to have computable examples: potential `x²`, force `-2x`. -/
def intCfg (bc : Option BoundaryCondition) (ranges : List (Int × Int)) : LdCfg Int 1 where
  pot :=
    { energy := fun x => x 0 * x 0
      force := fun x _ => -2 * x 0
      evaluate := fun x => (x 0 * x 0, fun _ => -2 * x 0)
      ranges := ranges
      bc := bc }
  dt := 1
  kt := 1
  half := 1
  c1 := 1
  c2of := fun m => 2 * m
  noiseFactor := 3

/-- A generator over the integers: the state is counted up and returned. -/
def intNormal : NormalOps Nat Int 1 := fun r => (fun _ => (r : Int) - 3, r + 1)

/-- What an integer state looks like: position, momentum, energy, force, `c2` of each particle. -/
def intView (s : Except PyErr (LdState Int 1 Nat)) : Option (List (List Int) × Nat) :=
  match s with
  | .ok s => some (s.particles.map (fun p => [p.pos 0, p.mom 0, p.energy, p.forces 0, p.c2]), s.rng)
  | .error _ => none

-- two particles, a step, walker 0 copied over walker 1, another step, insertion of a particle at the front,
-- removal of the last one
example : intView (([.add [5] 1 (-1) false, .add [2] 2 (-1) false, .step, .moves [(0, 1)], .step,
    .add [7] 3 0 false, .remove (-1)] : List (LdOp Int)).foldlM
      (LdState.apply .bussi (intCfg none []) intNormal) ⟨[], 0⟩) =
    some ([[7, 0, 49, -14, 6], [15, 0, 225, -30, 2]], 8) := by decide

section
variable {F : Type} {d : Nat} [Add F] [Sub F] [Mul F] [Div F] [Neg F] [LT F] [DecidableLT F]

/-! ### C42 -/

/-- The path of one walker on its own: in step `t` (counted from 0) it uses the noise vectors `noise t 0`,
`noise t 1`. -/
def walkerPath (kind : LdKind) (c : LdCfg F d) (noise : Nat → Nat → Fin d → F) :
    Nat → LdParticle F d → Except PyErr (LdParticle F d)
  | 0, p => .ok p
  | n + 1, p => do
    let p' ← walkerPath kind c noise n p
    walkerStep kind c (noise n) p'

/-- C42: after `n` steps walker `k` of `N` is where it would be if it had moved alone with the vectors at the
places `(t N + k) q + j` of the random stream, where `q` is the number of vectors per walker and step, and the
random stream has advanced by exactly `n N q` vectors. -/
theorem ld_walker_path {R : Type} (kind : LdKind) (c : LdCfg F d) (normal : NormalOps R F d) (s s' : LdState F d R)
    (n : Nat) (h : s.iter kind c normal n = .ok s') :
    s'.rng = drawState normal (n * s.particles.length * kind.draws) s.rng ∧
    s'.particles.length = s.particles.length ∧
    ∀ (k : Nat) (p : LdParticle F d), s.particles[k]? = some p → ∃ p', s'.particles[k]? = some p' ∧
      walkerPath kind c (fun t j => draw normal s.rng ((t * s.particles.length + k) * kind.draws + j)) n p
        = .ok p' := by
  induction n generalizing s' with
  | zero =>
    unfold LdState.iter at h
    injection h with h
    subst h
    exact ⟨by simp [drawState], rfl, fun k p hp => ⟨p, hp, rfl⟩⟩
  | succ n ih =>
    unfold LdState.iter at h
    cases hi : LdState.iter kind c normal n s with
    | error e => simp only [hi, error_bind] at h; cases h
    | ok s1 =>
      simp only [hi, ok_bind] at h
      obtain ⟨h1, h2, h3⟩ := ih s1 hi
      obtain ⟨g1, g2, g3⟩ := run_ok h
      refine ⟨?_, by rw [g2, h2], ?_⟩
      · rw [g1, h1, h2, ← drawState_add]
        congr 1
        rw [Nat.add_mul, Nat.add_mul, Nat.one_mul]; omega
      · intro k p hp
        obtain ⟨p1, hp1, hw1⟩ := h3 k p hp
        obtain ⟨p', hp', hw'⟩ := g3 k p1 hp1
        refine ⟨p', hp', ?_⟩
        unfold walkerPath
        rw [hw1, ok_bind, ← hw']
        congr 1
        funext j
        rw [h1, draw_add]
        congr 1
        simp only [Nat.add_mul]
        omega

/-- C42: changing the other walkers does not change the path of walker `k`. -/
theorem ld_walker_independent {R : Type} (kind : LdKind) (c : LdCfg F d) (normal : NormalOps R F d)
    (s1 s2 s1' s2' : LdState F d R) (n k : Nat) (hr : s1.rng = s2.rng)
    (hl : s1.particles.length = s2.particles.length) (hk : s1.particles[k]? = s2.particles[k]?)
    (h1 : s1.iter kind c normal n = .ok s1') (h2 : s2.iter kind c normal n = .ok s2') :
    s1'.particles[k]? = s2'.particles[k]? := by
  obtain ⟨_, e1, f1⟩ := ld_walker_path kind c normal s1 s1' n h1
  obtain ⟨_, e2, f2⟩ := ld_walker_path kind c normal s2 s2' n h2
  cases hp : s1.particles[k]? with
  | none =>
    rw [List.getElem?_eq_none_iff] at hp
    rw [List.getElem?_eq_none_iff.2 (by omega), List.getElem?_eq_none_iff.2 (by omega)]
  | some p =>
    obtain ⟨p1, q1, w1⟩ := f1 k p hp
    obtain ⟨p2, q2, w2⟩ := f2 k p (hk ▸ hp)
    rw [hr, hl] at w1
    rw [w1] at w2
    injection w2 with w2
    rw [q1, q2, w2]

end

-- two states that differ in the first particle only
example : intView (LdState.iter .overdamped (intCfg none []) intNormal 2
      ⟨[newParticle (intCfg none []) (fun _ => 9) 1, newParticle (intCfg none []) (fun _ => 4) 1], 0⟩) =
      some ([[15, 0, 225, -30, 2], [10, 0, 100, -20, 2]], 4) ∧
    intView (LdState.iter .overdamped (intCfg none []) intNormal 2
      ⟨[newParticle (intCfg none []) (fun _ => 1) 1, newParticle (intCfg none []) (fun _ => 4) 1], 0⟩) =
      some ([[7, 0, 49, -14, 2], [10, 0, 100, -20, 2]], 4) := by decide

section
variable {F : Type} {d : Nat} [AddGroup F] [Mul F] [Div F] [LinearOrder F]

/-! ### C43 -/

/-- All coordinates inside the ranges of the potential. -/
def InRanges (ranges : List (F × F)) (pos : Fin d → F) : Prop :=
  ∀ (i : Fin d) (r : F × F), ranges[i.val]? = some r → r.1 ≤ pos i ∧ pos i ≤ r.2

/-- C43: with reflective boundary condition, all walkers are inside the ranges after a Langevin step and whatever
Langevin steps, birth-death moves and removals follow it. -/
theorem ld_reflective_inside {R : Type} (kind : LdKind) (c : LdCfg F d) (normal : NormalOps R F d)
    (hbc : c.pot.bc = some .reflective) (hlh : ∀ r ∈ c.pot.ranges, r.1 ≤ r.2)
    (ops : List (LdOp F)) (hops : ∀ op ∈ ops, ∀ pos mass k ow, op ≠ .add pos mass k ow) (s s' : LdState F d R)
    (h : (LdOp.step :: ops).foldlM (LdState.apply kind c normal) s = .ok s') :
    ∀ p ∈ s'.particles, InRanges c.pot.ranges p.pos := by
  have hstep : ∀ noise p p', walkerStep kind c noise p = .ok p' → InRanges c.pot.ranges p'.pos := by
    intro noise p p' hw i r hr
    obtain ⟨⟨x, m, m', hb⟩, _⟩ := walkerStep_ok hw
    unfold Potential.applyBc at hb
    rw [hbc] at hb
    simp only at hb
    by_cases hd : d ≤ c.pot.ranges.length
    · obtain ⟨q, mq, hq, hspec⟩ := reflective_spec c.pot.ranges hd hlh x m
      rw [hq] at hb
      injection hb with hb
      have h1 := (hspec i).inside
      have : q = p'.pos := congrArg Prod.fst hb
      rw [this] at h1
      have hget : c.pot.ranges.get (i.castLE hd) = r := by
        have hlt : i.val < c.pot.ranges.length := lt_of_lt_of_le i.isLt hd
        rw [List.getElem?_eq_getElem hlt] at hr
        injection hr
      rw [hget] at h1
      exact h1
    · rw [applyReflective_index_error _ (by omega)] at hb; cases hb
  rw [List.foldlM_cons] at h
  cases h1 : LdState.apply kind c normal s .step with
  | error e => simp only [h1, error_bind] at h; cases h
  | ok s1 =>
    simp only [h1, ok_bind] at h
    have hs1 : ∀ p ∈ s1.particles, InRanges c.pot.ranges p.pos := by
      intro p hp
      obtain ⟨q, _, noise, hw⟩ := run_mem (show s.run kind c normal = .ok s1 from h1) p hp
      exact hstep noise q p hw
    clear h1
    induction ops generalizing s1 with
    | nil =>
      rw [List.foldlM_nil] at h
      injection h with h
      subst h
      exact hs1
    | cons op ops ih =>
      rw [List.foldlM_cons] at h
      cases h2 : LdState.apply kind c normal s1 op with
      | error e => simp only [h2, error_bind] at h; cases h
      | ok s2 =>
        simp only [h2, ok_bind] at h
        refine ih (fun op hop => hops op (by simp [hop])) s2 h ?_
        intro p hp
        cases op with
        | step =>
          obtain ⟨q, _, noise, hw⟩ := run_mem (show s1.run kind c normal = .ok s2 from h2) p hp
          exact hstep noise q p hw
        | moves es =>
          unfold LdState.apply at h2
          cases hm : performMoves s1.particles es with
          | error e => simp only [hm, error_bind] at h2; cases h2
          | ok ps =>
            simp only [hm, ok_bind, pure_eq_ok] at h2
            injection h2 with h2
            subst h2
            exact hs1 p ((performMoves_ok es hm).mem p hp)
        | add pos mass k ow => exact absurd rfl (hops _ (by simp) pos mass k ow)
        | remove k =>
          unfold LdState.apply LdState.removeParticle at h2
          cases hm : pyDelItem s1.particles k with
          | error e => simp only [hm, error_bind] at h2; cases h2
          | ok ps =>
            simp only [hm, ok_bind, pure_eq_ok] at h2
            injection h2 with h2
            subst h2
            exact hs1 p (mem_pyDelItem hm hp)

/-- C43: a Langevin simulation never raises if there is a range for every dimension, or no boundary condition. -/
theorem ld_no_error {R : Type} (kind : LdKind) (c : LdCfg F d) (normal : NormalOps R F d)
    (h : c.pot.bc = none ∨ d ≤ c.pot.ranges.length) (n : Nat) (s : LdState F d R) :
    ∃ s', s.iter kind c normal n = .ok s' := by
  have hb : ∀ pos mom, ∃ x, c.pot.applyBc pos mom = .ok x := by
    intro pos mom
    unfold Potential.applyBc
    cases hc : c.pot.bc with
    | none => exact ⟨_, rfl⟩
    | some b =>
      have hd : d ≤ c.pot.ranges.length := h.resolve_left (by rw [hc]; simp)
      cases b with
      | reflective => exact ⟨_, applyReflective_eq _ hd _ _⟩
      | periodic => exact ⟨_, applyPeriodic_eq _ hd _ _⟩
  induction n with
  | zero => exact ⟨s, rfl⟩
  | succ n ih =>
    obtain ⟨s1, h1⟩ := ih
    unfold LdState.iter
    rw [h1, ok_bind]
    unfold LdState.run
    obtain ⟨x, hx⟩ := ldLoop_total kind c normal (fun noise p => walkerStep_total hb noise p) s1.particles s1.rng
    rw [hx]
    exact ⟨_, rfl⟩

/-- C43: with a boundary condition and too few ranges, the first step of a simulation with at least one particle
raises `IndexError`. -/
theorem ld_index_error {R : Type} (kind : LdKind) (c : LdCfg F d) (normal : NormalOps R F d)
    (b : BoundaryCondition) (hb : c.pot.bc = some b) (h : c.pot.ranges.length < d) (s : LdState F d R)
    (hs : s.particles ≠ []) : s.run kind c normal = .error .indexError := by
  have hbc : ∀ pos mom, c.pot.applyBc pos mom = .error .indexError := by
    intro pos mom
    unfold Potential.applyBc
    rw [hb]
    cases b with
    | reflective => exact applyReflective_index_error _ h _ _
    | periodic => exact applyPeriodic_index_error _ h _ _
  unfold LdState.run
  cases hp : s.particles with
  | nil => exact absurd hp hs
  | cons p ps =>
    unfold ldLoop
    rw [particleStep_eq]
    cases kind with
    | bussi =>
      unfold walkerStep bussiStep
      simp only [hbc, error_bind, Except.map]
    | overdamped =>
      unfold walkerStep overdampedStep
      simp only [hbc, error_bind, Except.map]

end

-- the walker would leave the box
example : intView (LdState.iter .overdamped (intCfg (some .reflective) [(-4, 4)]) intNormal 1
      ⟨[newParticle (intCfg none []) (fun _ => 3) 1, newParticle (intCfg none []) (fun _ => 4) 1], 0⟩) =
    some ([[-4, 0, 16, 8, 2], [-4, 0, 16, 8, 2]], 2) := by decide

example : LdState.run .overdamped (intCfg (some .periodic) []) intNormal
      ⟨[newParticle (intCfg none []) (fun _ => 3) 1], 0⟩ = .error .indexError :=
  ld_index_error _ _ _ .periodic rfl (by decide) _ (by simp)

section
variable {F : Type} {d : Nat} [Add F] [Sub F] [Mul F] [Div F] [Neg F] [LT F] [DecidableLT F]

/-! ### C41, law-free part -/

omit [Div F] in
/-- C41: the position used by the boundary condition, and the exact result of a step. -/
theorem overdamped_rule (c : LdCfg F d) (noise : Fin d → F) (p p' : LdParticle F d)
    (h : overdampedStep c noise p = .ok p') :
    c.pot.applyBc (fun k => p.pos k + (c.dt * p.forces k + c.noiseFactor * noise k)) p.mom = .ok (p'.pos, p'.mom) ∧
    p'.mass = p.mass ∧ (p'.energy, p'.forces) = c.pot.evaluate p'.pos := by
  obtain ⟨pos, mom, h1, rfl⟩ := overdampedStep_ok h
  exact ⟨h1, rfl, rfl⟩

omit [Div F] in
/-- C41 without boundary condition. -/
theorem overdamped_rule_free (c : LdCfg F d) (hb : c.pot.bc = none) (noise : Fin d → F) (p : LdParticle F d) :
    ∃ p', overdampedStep c noise p = .ok p' ∧
      p'.pos = (fun k => p.pos k + (c.dt * p.forces k + c.noiseFactor * noise k)) ∧ p'.mom = p.mom := by
  unfold overdampedStep Potential.applyBc
  rw [hb]
  exact ⟨_, rfl, rfl, rfl⟩

/-- C74: what happens with a boundary condition: it acts on position and momentum after the drift, before the
new forces are calculated. -/
theorem bussi_rule_bc (c : LdCfg F d) (n1 n2 : Fin d → F) (p p' : LdParticle F d) (h : bussiStep c n1 n2 p = .ok p') :
    ∃ mom, c.pot.applyBc
        (fun k => p.pos k + (c.c1 * p.mom k + p.c2 * n1 k + c.half * p.forces k * c.dt) / p.mass * c.dt)
        (fun k => c.c1 * p.mom k + p.c2 * n1 k + c.half * p.forces k * c.dt) = .ok (p'.pos, mom) ∧
      (p'.energy, p'.forces) = c.pot.evaluate p'.pos ∧
      (∀ k, p'.mom k = c.c1 * (mom k + c.half * p'.forces k * c.dt) + p.c2 * n2 k) ∧
      p'.mass = p.mass ∧ p'.c2 = p.c2 := by
  obtain ⟨pos, mom, h1, rfl⟩ := bussiStep_ok h
  exact ⟨mom, h1, rfl, fun _ => rfl, rfl, rfl⟩

/-! ### C44 -/

variable [Zero F] {R : Type}

omit [Add F] [Sub F] [Mul F] [Div F] [Neg F] [LT F] [DecidableLT F] in
/-- C44: wrong dimension. -/
theorem add_particle_dim (c : LdCfg F d) (s : LdState F d R) (pos : List F) (mass : F) (k : Int) (ow : Bool)
    (h : pos.length ≠ d) : s.addParticle c pos mass k ow = .error .valueError := by
  unfold LdState.addParticle
  rw [dif_neg h]

omit [Add F] [Sub F] [Mul F] [Div F] [Neg F] [LT F] [DecidableLT F] in
/-- C44: the new particle is at rest at the given position, with energy and forces of that position. -/
theorem add_particle_new (c : LdCfg F d) (pos : Fin d → F) (mass : F) :
    (newParticle c pos mass).pos = pos ∧ (∀ k, (newParticle c pos mass).mom k = 0) ∧
    (newParticle c pos mass).mass = mass ∧ (newParticle c pos mass).c2 = c.c2of mass ∧
    ((newParticle c pos mass).energy, (newParticle c pos mass).forces) = c.pot.evaluate pos :=
  ⟨rfl, fun _ => rfl, rfl, rfl, rfl⟩

omit [Add F] [Sub F] [Mul F] [Div F] [Neg F] [LT F] [DecidableLT F] in
/-- C44: by default the particle is appended. -/
theorem add_particle_append (c : LdCfg F d) (s : LdState F d R) (pos : Fin d → F) (mass : F) :
    s.addParticle c (List.ofFn pos) mass (-1) false =
      .ok { s with particles := s.particles ++ [newParticle c pos mass] } := by
  unfold LdState.addParticle
  rw [dif_pos (by simp)]
  simp only [Bool.false_eq_true, if_false, if_true]
  have : (fun k : Fin d => (List.ofFn pos).get (k.cast (by simp))) = pos := by
    funext k; simp
  rw [this]

omit [Add F] [Sub F] [Mul F] [Div F] [Neg F] [LT F] [DecidableLT F] in
/-- C44: insertion before index `k`: the particles before it keep their index, the new particle gets index `k`,
the others move up by one. -/
theorem add_particle_insert (c : LdCfg F d) (s : LdState F d R) (pos : Fin d → F) (mass : F) (k : Nat)
    (hk : k ≤ s.particles.length) :
    ∃ s', s.addParticle c (List.ofFn pos) mass k false = .ok s' ∧ s'.rng = s.rng ∧
      s'.particles.length = s.particles.length + 1 ∧ s'.particles[k]? = some (newParticle c pos mass) ∧
      (∀ j < k, s'.particles[j]? = s.particles[j]?) ∧ (∀ j ≥ k, s'.particles[j + 1]? = s.particles[j]?) := by
  unfold LdState.addParticle
  rw [dif_pos (by simp)]
  have : (fun k : Fin d => (List.ofFn pos).get (k.cast (by simp))) = pos := by
    funext k; simp
  simp only [Bool.false_eq_true, if_false, this]
  rw [if_neg (by omega)]
  have hb : sliceBound s.particles.length (k : Int) = k := by
    unfold sliceBound; rw [if_neg (by omega)]; omega
  refine ⟨_, rfl, rfl, ?_, ?_, ?_, ?_⟩
  · simp only [pyInsert, hb, List.length_append, List.length_take, List.length_cons, List.length_drop]; omega
  · simp only [pyInsert, hb]
    rw [List.getElem?_append_right (by simp)]
    simp [Nat.min_eq_left hk]
  · intro j hj
    simp only [pyInsert, hb]
    rw [List.getElem?_append_left (by simp only [List.length_take]; omega), List.getElem?_take, if_pos hj]
  · intro j hj
    simp only [pyInsert, hb]
    rw [List.getElem?_append_right (by simp; omega)]
    simp only [List.length_take, Nat.min_eq_left hk]
    rw [show j + 1 - k = (j - k) + 1 by omega, List.getElem?_cons_succ, List.getElem?_drop]
    congr 1
    omega

omit [Add F] [Sub F] [Mul F] [Div F] [Neg F] [LT F] [DecidableLT F] in
/-- C44: replacing index `k`. -/
theorem add_particle_overwrite (c : LdCfg F d) (s : LdState F d R) (pos : Fin d → F) (mass : F) (k : Nat) :
    s.addParticle c (List.ofFn pos) mass k true =
      if k < s.particles.length then .ok { s with particles := s.particles.set k (newParticle c pos mass) }
      else .error .indexError := by
  unfold LdState.addParticle
  rw [dif_pos (by simp)]
  have : (fun k : Fin d => (List.ofFn pos).get (k.cast (by simp))) = pos := by
    funext k; simp
  simp only [if_true, this]
  unfold pySetItem
  by_cases h : k < s.particles.length
  · rw [if_pos h, if_pos (by omega)]; rfl
  · rw [if_neg h, if_neg (by omega), if_neg (by omega)]; rfl

omit [Add F] [Sub F] [Mul F] [Div F] [Neg F] [LT F] [DecidableLT F] [Zero F] in
/-- C44: removing index `k` keeps all others in order. -/
theorem remove_particle_spec (s : LdState F d R) (k : Nat) :
    s.removeParticle k =
      if k < s.particles.length then .ok { s with particles := s.particles.eraseIdx k }
      else .error .indexError := by
  unfold LdState.removeParticle pyDelItem
  by_cases h : k < s.particles.length
  · rw [if_pos h, if_pos (by omega)]; rfl
  · rw [if_neg h, if_neg (by omega), if_neg (by omega)]; rfl

end

example : intView (LdState.addParticle (intCfg none []) ⟨[newParticle (intCfg none []) (fun _ => 3) 1], 0⟩
    [8] 2 0 false) = some ([[8, 0, 64, -16, 4], [3, 0, 9, -6, 2]], 0) := by decide

example : intView (LdState.addParticle (intCfg none []) ⟨[newParticle (intCfg none []) (fun _ => 3) 1], 0⟩
    [8] 2 0 true) = some ([[8, 0, 64, -16, 4]], 0) := by decide

end Bdld
