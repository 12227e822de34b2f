import Verif.Model.Langevin
import Verif.Spec.Langevin
import Verif.Lemmas.Potential
import Verif.Lemmas.BirthDeath

/-
Helper lemmas for `Props/Langevin.lean`.
-/

namespace Bdld
open Spec

theorem drawState_add {R V : Type} (normal : R → V × R) (i j : Nat) (r : R) :
    drawState normal (i + j) r = drawState normal i (drawState normal j r) := by
  unfold drawState; rw [Function.iterate_add_apply]

theorem draw_add {R V : Type} (normal : R → V × R) (r : R) (i j : Nat) :
    draw normal (drawState normal j r) i = draw normal r (i + j) := by
  unfold draw; rw [drawState_add]

section
variable {F : Type} {d : Nat} [Add F] [Sub F] [Mul F] [Div F] [Neg F] [LT F] [DecidableLT F]

/-- Number of random vectors used per particle and step. -/
def LdKind.draws : LdKind → Nat
  | .bussi => 2
  | .overdamped => 1

/-- One step of one walker with explicit noise. -/
def walkerStep (kind : LdKind) (c : LdCfg F d) (noise : Nat → Fin d → F) (p : LdParticle F d) :
    Except PyErr (LdParticle F d) :=
  match kind with
  | .bussi => bussiStep c (noise 0) (noise 1) p
  | .overdamped => overdampedStep c (noise 0) p

theorem particleStep_eq {R : Type} (kind : LdKind) (c : LdCfg F d) (normal : NormalOps R F d)
    (p : LdParticle F d) (r : R) :
    particleStep kind c normal p r =
      (walkerStep kind c (draw normal r) p).map (fun p' => (p', drawState normal kind.draws r)) := by
  cases kind with
  | bussi =>
    unfold particleStep walkerStep draw drawState LdKind.draws
    simp only [Function.iterate_zero, id_eq, Function.iterate_succ, Function.comp_apply]
    cases bussiStep c (normal r).1 (normal (normal r).2).1 p <;> rfl
  | overdamped =>
    unfold particleStep walkerStep draw drawState LdKind.draws
    simp only [Function.iterate_zero, id_eq, Function.iterate_succ, Function.comp_apply]
    cases overdampedStep c (normal r).1 p <;> rfl

theorem ldLoop_ok {R : Type} (kind : LdKind) (c : LdCfg F d) (normal : NormalOps R F d)
    (ps : List (LdParticle F d)) : ∀ (r : R) (x : List (LdParticle F d) × R), ldLoop kind c normal ps r = .ok x →
    x.2 = drawState normal (ps.length * kind.draws) r ∧ x.1.length = ps.length ∧
    ∀ (k : Nat) (p : LdParticle F d), ps[k]? = some p → ∃ p', x.1[k]? = some p' ∧
      walkerStep kind c (fun j => draw normal r (k * kind.draws + j)) p = .ok p' := by
  induction ps with
  | nil =>
    intro r x h
    unfold ldLoop at h
    injection h with h
    subst h
    refine ⟨by simp [drawState], rfl, fun k p h => by simp at h⟩
  | cons p ps ih =>
    intro r x h
    unfold ldLoop at h
    rw [particleStep_eq] at h
    cases hw : walkerStep kind c (draw normal r) p with
    | error e => rw [hw] at h; cases h
    | ok p1 =>
      rw [hw] at h
      simp only [Except.map, ok_bind] at h
      cases hl : ldLoop kind c normal ps (drawState normal kind.draws r) with
      | error e => rw [hl] at h; cases h
      | ok xs =>
        rw [hl, ok_bind, pure_eq_ok] at h
        injection h with h
        subst h
        obtain ⟨h1, h2, h3⟩ := ih _ _ hl
        refine ⟨?_, by simp [h2], ?_⟩
        · show xs.2 = _
          rw [h1, ← drawState_add, List.length_cons]
          congr 1
          rw [Nat.add_mul]; omega
        · intro k q hq
          cases k with
          | zero =>
            simp only [List.getElem?_cons_zero, Option.some.injEq] at hq
            subst hq
            refine ⟨p1, rfl, ?_⟩
            simpa using hw
          | succ k =>
            simp only [List.getElem?_cons_succ] at hq
            obtain ⟨p', hp', hs⟩ := h3 k q hq
            refine ⟨p', by simpa using hp', ?_⟩
            have : (fun j => draw normal (drawState normal kind.draws r) (k * kind.draws + j)) =
                (fun j => draw normal r ((k + 1) * kind.draws + j)) := by
              funext j
              rw [draw_add]
              congr 1
              rw [Nat.add_mul]; omega
            rw [← this]
            exact hs

theorem ldLoop_total {R : Type} (kind : LdKind) (c : LdCfg F d) (normal : NormalOps R F d)
    (h : ∀ noise p, ∃ p', walkerStep kind c noise p = .ok p') (ps : List (LdParticle F d)) :
    ∀ r : R, ∃ x, ldLoop kind c normal ps r = .ok x := by
  induction ps with
  | nil => intro r; exact ⟨_, rfl⟩
  | cons p ps ih =>
    intro r
    unfold ldLoop
    rw [particleStep_eq]
    obtain ⟨p', hp⟩ := h (draw normal r) p
    rw [hp]
    simp only [Except.map, ok_bind]
    obtain ⟨x, hx⟩ := ih (drawState normal kind.draws r)
    rw [hx]
    exact ⟨_, rfl⟩

theorem run_ok {R : Type} {kind : LdKind} {c : LdCfg F d} {normal : NormalOps R F d} {s s' : LdState F d R}
    (h : s.run kind c normal = .ok s') :
    s'.rng = drawState normal (s.particles.length * kind.draws) s.rng ∧
    s'.particles.length = s.particles.length ∧
    ∀ (k : Nat) (p : LdParticle F d), s.particles[k]? = some p → ∃ p', s'.particles[k]? = some p' ∧
      walkerStep kind c (fun j => draw normal s.rng (k * kind.draws + j)) p = .ok p' := by
  unfold LdState.run at h
  cases hl : ldLoop kind c normal s.particles s.rng with
  | error e => rw [hl] at h; cases h
  | ok x =>
    rw [hl, ok_bind, pure_eq_ok] at h
    injection h with h
    subst h
    exact ldLoop_ok kind c normal s.particles s.rng x hl

/-- Every walker after a step comes from a walker before the step. -/
theorem run_mem {R : Type} {kind : LdKind} {c : LdCfg F d} {normal : NormalOps R F d} {s s' : LdState F d R}
    (h : s.run kind c normal = .ok s') (p' : LdParticle F d) (hp : p' ∈ s'.particles) :
    ∃ p ∈ s.particles, ∃ noise, walkerStep kind c noise p = .ok p' := by
  obtain ⟨_, hlen, hk⟩ := run_ok h
  obtain ⟨k, hk1, hk2⟩ := List.mem_iff_getElem.1 hp
  have hk3 : k < s.particles.length := by omega
  obtain ⟨q, hq, hs⟩ := hk k s.particles[k] (List.getElem?_eq_getElem hk3)
  rw [List.getElem?_eq_getElem hk1] at hq
  injection hq with hq
  rw [← hk2, hq]
  exact ⟨s.particles[k], List.getElem_mem hk3, _, hs⟩

/-- What one step of a walker computes, with the boundary condition as only source of errors. -/
theorem bussiStep_ok {c : LdCfg F d} {n1 n2 : Fin d → F} {p p' : LdParticle F d} (h : bussiStep c n1 n2 p = .ok p') :
    ∃ pos mom, c.pot.applyBc
      (drift c.dt p.mass p.pos (kick c.half c.dt (thermostat c.c1 p.c2 p.mom n1) p.forces))
      (kick c.half c.dt (thermostat c.c1 p.c2 p.mom n1) p.forces) = .ok (pos, mom) ∧
      p' = bussiFinish c n2 p pos mom := by
  unfold bussiStep at h
  cases hb : c.pot.applyBc
      (drift c.dt p.mass p.pos (kick c.half c.dt (thermostat c.c1 p.c2 p.mom n1) p.forces))
      (kick c.half c.dt (thermostat c.c1 p.c2 p.mom n1) p.forces) with
  | error e => simp only [hb, error_bind] at h; cases h
  | ok x =>
    simp only [hb, ok_bind, pure_eq_ok] at h
    injection h with h
    exact ⟨x.1, x.2, rfl, h.symm⟩

omit [Div F] in
theorem overdampedStep_ok {c : LdCfg F d} {n1 : Fin d → F} {p p' : LdParticle F d}
    (h : overdampedStep c n1 p = .ok p') :
    ∃ pos mom, c.pot.applyBc (fun k => p.pos k + (c.dt * p.forces k + c.noiseFactor * n1 k)) p.mom = .ok (pos, mom) ∧
      p' = { p with
        pos := pos
        mom := mom
        energy := (c.pot.evaluate pos).1
        forces := (c.pot.evaluate pos).2 } := by
  unfold overdampedStep at h
  cases hb : c.pot.applyBc (fun k => p.pos k + (c.dt * p.forces k + c.noiseFactor * n1 k)) p.mom with
  | error e => simp only [hb, error_bind] at h; cases h
  | ok x =>
    simp only [hb, ok_bind, pure_eq_ok] at h
    injection h with h
    exact ⟨x.1, x.2, rfl, h.symm⟩

/-- After a step of a walker: its position comes out of the boundary condition, energy and forces are those of
the potential there, mass and `c2` are unchanged. -/
theorem walkerStep_ok {kind : LdKind} {c : LdCfg F d} {noise : Nat → Fin d → F} {p p' : LdParticle F d}
    (h : walkerStep kind c noise p = .ok p') :
    (∃ x m m', c.pot.applyBc x m = .ok (p'.pos, m')) ∧ (p'.energy, p'.forces) = c.pot.evaluate p'.pos ∧
    p'.mass = p.mass ∧ p'.c2 = p.c2 := by
  cases kind with
  | bussi =>
    obtain ⟨pos, mom, h1, rfl⟩ := bussiStep_ok h
    exact ⟨⟨_, _, _, h1⟩, rfl, rfl, rfl⟩
  | overdamped =>
    obtain ⟨pos, mom, h1, rfl⟩ := overdampedStep_ok h
    exact ⟨⟨_, _, _, h1⟩, rfl, rfl, rfl⟩

theorem walkerStep_total {kind : LdKind} {c : LdCfg F d}
    (h : ∀ pos mom, ∃ x, c.pot.applyBc pos mom = .ok x) (noise : Nat → Fin d → F) (p : LdParticle F d) :
    ∃ p', walkerStep kind c noise p = .ok p' := by
  cases kind with
  | bussi =>
    unfold walkerStep bussiStep
    obtain ⟨x, hx⟩ := h (drift c.dt p.mass p.pos (kick c.half c.dt (thermostat c.c1 p.c2 p.mom (noise 0)) p.forces))
      (kick c.half c.dt (thermostat c.c1 p.c2 p.mom (noise 0)) p.forces)
    simp only [hx, ok_bind]
    exact ⟨_, rfl⟩
  | overdamped =>
    unfold walkerStep overdampedStep
    obtain ⟨x, hx⟩ := h (fun k => p.pos k + (c.dt * p.forces k + c.noiseFactor * noise 0 k)) p.mom
    simp only [hx, ok_bind]
    exact ⟨_, rfl⟩

end

theorem mem_pySetItem {α : Type} {l l' : List α} {i : Int} {v x : α} (h : pySetItem l i v = .ok l') (hx : x ∈ l') :
    x ∈ l ∨ x = v := by
  unfold pySetItem at h
  split at h
  · injection h with h; subst h; exact (List.mem_or_eq_of_mem_set hx)
  · split at h
    · injection h with h; subst h; exact (List.mem_or_eq_of_mem_set hx)
    · cases h

theorem mem_pyInsert {α : Type} {l : List α} {i : Int} {v x : α} (hx : x ∈ pyInsert l i v) : x ∈ l ∨ x = v := by
  unfold pyInsert at hx
  rcases List.mem_append.1 hx with h | h
  · exact Or.inl (List.mem_of_mem_take h)
  · rcases List.mem_cons.1 h with h | h
    · exact Or.inr h
    · exact Or.inl (List.mem_of_mem_drop h)

theorem mem_pyDelItem {α : Type} {l l' : List α} {i : Int} {x : α} (h : pyDelItem l i = .ok l') (hx : x ∈ l') :
    x ∈ l := by
  unfold pyDelItem at h
  split at h
  · injection h with h; subst h; exact List.mem_of_mem_eraseIdx hx
  · split at h
    · injection h with h; subst h; exact List.mem_of_mem_eraseIdx hx
    · cases h

end Bdld
