import Verif.Lemmas.Rounding
import Verif.Props.Langevin
import Verif.Model.LangevinReal

/-
C109: rounding errors of the Langevin dynamics.
-/

namespace Bdld
open Spec

noncomputable section

/-- Bounds of everything that enters a step: constants and random numbers with their errors, the mass, and for the exact
path positions `X`, momenta `P`, forces `Φ`; computed forces change by `L` times the error of the position plus `φ`, for errors of the
position up to `E`. -/
structure LdBnd where
  dt : Bnd
  half : Bnd
  c1 : Bnd
  c2 : Bnd
  noiseFactor : Bnd
  noise : Bnd
  mass : ℝ
  X : ℝ
  P : ℝ
  Φ : ℝ
  L : ℝ
  φ : ℝ
  E : ℝ

/-- Bounds of the forces at a position with error `e`. -/
def LdBnd.force (B : LdBnd) (e : ℝ) : Bnd := ⟨B.L * e + B.φ, B.Φ⟩

/-- Bounds of the new position, overdamped dynamics. -/
def LdBnd.euler (B : LdBnd) (u η : ℝ) (e : ℝ) : Bnd :=
  Bnd.add u ⟨e, B.X⟩ (Bnd.add u (B.dt.mul u η (B.force e)) (B.noiseFactor.mul u η B.noise))

/-- No overflow in a step of overdamped dynamics. -/
def LdBnd.eulerFits (B : LdBnd) (u η Ω : ℝ) (e : ℝ) : Prop :=
  B.dt.mulTop (B.force e) ≤ Ω ∧ B.noiseFactor.mulTop B.noise ≤ Ω ∧
    (B.dt.mul u η (B.force e)).addTop (B.noiseFactor.mul u η B.noise) ≤ Ω ∧
    Bnd.addTop ⟨e, B.X⟩ (Bnd.add u (B.dt.mul u η (B.force e)) (B.noiseFactor.mul u η B.noise)) ≤ Ω

/-- Bounds of the momentum after the thermostat. -/
def LdBnd.thermostat (B : LdBnd) (u η : ℝ) (p : Bnd) : Bnd := Bnd.add u (B.c1.mul u η p) (B.c2.mul u η B.noise)

def LdBnd.thermostatFits (B : LdBnd) (u η Ω : ℝ) (p : Bnd) : Prop :=
  B.c1.mulTop p ≤ Ω ∧ B.c2.mulTop B.noise ≤ Ω ∧ (B.c1.mul u η p).addTop (B.c2.mul u η B.noise) ≤ Ω

/-- Bounds of the momentum after half a kick at a position with error `e`. -/
def LdBnd.kick (B : LdBnd) (u η : ℝ) (e : ℝ) (p : Bnd) : Bnd :=
  Bnd.add u p ((B.half.mul u η (B.force e)).mul u η B.dt)

def LdBnd.kickFits (B : LdBnd) (u η Ω : ℝ) (e : ℝ) (p : Bnd) : Prop :=
  B.half.mulTop (B.force e) ≤ Ω ∧ (B.half.mul u η (B.force e)).mulTop B.dt ≤ Ω ∧
    p.addTop ((B.half.mul u η (B.force e)).mul u η B.dt) ≤ Ω

/-- Bounds of the position after the drift. -/
def LdBnd.drift (B : LdBnd) (u η : ℝ) (e : ℝ) (p : Bnd) : Bnd := Bnd.add u ⟨e, B.X⟩ ((p.div u η B.mass).mul u η B.dt)

def LdBnd.driftFits (B : LdBnd) (u η Ω : ℝ) (e : ℝ) (p : Bnd) : Prop :=
  p.divTop B.mass ≤ Ω ∧ (p.div u η B.mass).mulTop B.dt ≤ Ω ∧ Bnd.addTop ⟨e, B.X⟩ ((p.div u η B.mass).mul u η B.dt) ≤ Ω

/-- Bounds of the momentum in the middle of a step. -/
def LdBnd.middle (B : LdBnd) (u η : ℝ) (e : ℝ × ℝ) : Bnd := B.kick u η e.1 (B.thermostat u η ⟨e.2, B.P⟩)

/-- Errors of position and momentum after a step from those before it. -/
def LdBnd.next (B : LdBnd) (kind : LdKind) (u η : ℝ) (e : ℝ × ℝ) : ℝ × ℝ :=
  match kind with
  | .overdamped => ((B.euler u η e.1).err, e.2)
  | .bussi =>
    let x := (B.drift u η e.1 (B.middle u η e)).err
    (x, (B.thermostat u η (B.kick u η x (B.middle u η e))).err)

/-- No overflow in a step. -/
def LdBnd.fits (B : LdBnd) (kind : LdKind) (u η Ω : ℝ) (e : ℝ × ℝ) : Prop :=
  match kind with
  | .overdamped => B.eulerFits u η Ω e.1
  | .bussi =>
    let x := (B.drift u η e.1 (B.middle u η e)).err
    B.thermostatFits u η Ω ⟨e.2, B.P⟩ ∧ B.kickFits u η Ω e.1 (B.thermostat u η ⟨e.2, B.P⟩) ∧
      B.driftFits u η Ω e.1 (B.middle u η e) ∧ B.kickFits u η Ω x (B.middle u η e) ∧
      B.thermostatFits u η Ω (B.kick u η x (B.middle u η e))

section
variable {F : Type} {d : Nat} [Add F] [Sub F] [Mul F] [Div F] [Neg F] [LT F] [DecidableLT F]

/-- Computed and exact constants, forces and boundaries agree within the bounds. The boundary is absent, or reflective for
overdamped dynamics. -/
structure NearCfg (A : Rounding F) (B : LdBnd) (kind : LdKind) (c : LdCfg F d) (c' : LdCfg ℝ d) : Prop where
  dt : Near A B.dt c.dt c'.dt
  half : Near A B.half c.half c'.half
  c1 : Near A B.c1 c.c1 c'.c1
  noiseFactor : Near A B.noiseFactor c.noiseFactor c'.noiseFactor
  mass : 0 < B.mass
  force : ∀ e x y, e ≤ B.E → (∀ k, Near A ⟨e, B.X⟩ (x k) (y k)) →
    ∀ k, Near A (B.force e) ((c.pot.evaluate x).2 k) ((c'.pot.evaluate y).2 k)
  bc : (c.pot.bc = none ∧ c'.pot.bc = none) ∨ (kind = .overdamped ∧ c.pot.bc = some .reflective ∧
    c'.pot.bc = some .reflective ∧ d ≤ c.pot.ranges.length ∧
    c'.pot.ranges = c.pot.ranges.map (fun r => (A.val r.1, A.val r.2)) ∧
    ∀ r ∈ c.pot.ranges, A.fin r.1 ∧ A.fin r.2 ∧ A.val r.1 ≤ A.val r.2)

/-- A computed walker and its exact counterpart, errors of position and momentum at most `e`. -/
structure NearWalker (A : Rounding F) (B : LdBnd) (kind : LdKind) (c : LdCfg F d) (c' : LdCfg ℝ d) (e : ℝ × ℝ)
    (p : LdParticle F d) (q : LdParticle ℝ d) : Prop where
  pos : ∀ k, Near A ⟨e.1, B.X⟩ (p.pos k) (q.pos k)
  mom : kind = .bussi → ∀ k, Near A ⟨e.2, B.P⟩ (p.mom k) (q.mom k)
  mass : A.fin p.mass ∧ A.val p.mass = B.mass ∧ q.mass = B.mass
  c2 : Near A B.c2 p.c2 q.c2
  computed : Consistent c p
  exact : Consistent c' q

/-- The exact walker is inside of the bounds. -/
def Inside (B : LdBnd) (kind : LdKind) (q : LdParticle ℝ d) : Prop :=
  (∀ k, |q.pos k| ≤ B.X) ∧ (kind = .bussi → ∀ k, |q.mom k| ≤ B.P)

variable {A : Rounding F} {B : LdBnd}

omit [DecidableLT F] in
theorem near_thermostat {p : Bnd} {c1 c2 a n : F} {c1' c2' x m : ℝ} (h1 : Near A B.c1 c1 c1') (h2 : Near A B.c2 c2 c2')
    (ha : Near A p a x) (hn : Near A B.noise n m) (hf : B.thermostatFits A.u A.η A.Ω p) :
    Near A (B.thermostat A.u A.η p) (c1 * a + c2 * n) (c1' * x + c2' * m) :=
  near_add (near_mul h1 ha hf.1) (near_mul h2 hn hf.2.1) hf.2.2

omit [DecidableLT F] in
theorem near_kick {p : Bnd} {e : ℝ} {half dt a f : F} {half' dt' x g : ℝ} (h1 : Near A B.half half half')
    (h2 : Near A B.dt dt dt') (ha : Near A p a x) (hg : Near A (B.force e) f g) (hf : B.kickFits A.u A.η A.Ω e p) :
    Near A (B.kick A.u A.η e p) (a + half * f * dt) (x + half' * g * dt') :=
  near_add ha (near_mul (near_mul h1 hg hf.1) h2 hf.2.1) hf.2.2

omit [DecidableLT F] in
theorem near_drift {p : Bnd} {e : ℝ} {dt m a b : F} {dt' x y : ℝ} (h2 : Near A B.dt dt dt') (hb : Near A ⟨e, B.X⟩ b y)
    (ha : Near A p a x) (hm : A.fin m) (hv : A.val m = B.mass) (hpos : 0 < B.mass) (hf : B.driftFits A.u A.η A.Ω e p) :
    Near A (B.drift A.u A.η e p) (b + a / m * dt) (y + x / B.mass * dt') :=
  near_add hb (near_mul (near_div ha hm hv hpos hf.1) h2 hf.2.1) hf.2.2

theorem near_reflect {b : Bnd} {r : F × F} {a m : F} {x m' M : ℝ} (h : Near A b a x) (h1 : A.fin r.1) (h2 : A.fin r.2)
    (hle : A.val r.1 ≤ A.val r.2) (hm : |(reflect1 (A.val r.1, A.val r.2) x m').1| ≤ M) :
    Near A ⟨b.err, M⟩ (reflect1 r a m).1 (reflect1 (A.val r.1, A.val r.2) x m').1 := by
  have hlo := A.lt a r.1 h.1 h1
  have hhi := A.lt r.2 a h2 h.1
  obtain ⟨hf, he, _⟩ := h
  have key : A.fin (reflect1 r a m).1 ∧ A.val (reflect1 r a m).1 = max (A.val r.1) (min (A.val a) (A.val r.2)) := by
    unfold reflect1
    by_cases c1 : a < r.1
    · rw [if_pos c1]
      exact ⟨h1, by rw [max_eq_left]; exact (min_le_left _ _).trans (hlo.1 c1).le⟩
    · rw [if_neg c1]
      have c1' : A.val r.1 ≤ A.val a := not_lt.1 (fun h => c1 (hlo.2 h))
      by_cases c2 : r.2 < a
      · rw [if_pos c2]
        exact ⟨h2, by rw [min_eq_right (hhi.1 c2).le, max_eq_right hle]⟩
      · rw [if_neg c2]
        have c2' : A.val a ≤ A.val r.2 := not_lt.1 (fun h => c2 (hhi.2 h))
        exact ⟨hf, by rw [min_eq_left c2', max_eq_right c1']⟩
  have key' : (reflect1 (A.val r.1, A.val r.2) x m').1 = max (A.val r.1) (min x (A.val r.2)) := by
    unfold reflect1
    by_cases c1 : x < A.val r.1
    · rw [if_pos c1, max_eq_left]; exact (min_le_left _ _).trans c1.le
    · rw [if_neg c1]
      by_cases c2 : A.val r.2 < x
      · rw [if_pos c2, min_eq_right c2.le, max_eq_right hle]
      · rw [if_neg c2, min_eq_left (not_lt.1 c2), max_eq_right (not_lt.1 c1)]
  refine ⟨key.1, ?_, hm⟩
  rw [key.2, key']
  refine le_trans ?_ he
  refine (abs_max_sub_max_le_max _ _ _ _).trans ?_
  refine max_le (by simp) ((abs_min_sub_min_le_max _ _ _ _).trans ?_)
  exact max_le le_rfl (by simp)

/-- One step of one walker: the computed step succeeds if and only if the exact one does, and errors are at most `next`. -/
theorem walker_rounding {kind : LdKind} {c : LdCfg F d} {c' : LdCfg ℝ d} (hc : NearCfg A B kind c c') {e : ℝ × ℝ}
    (hE : e.1 ≤ B.E) (hE' : (B.next kind A.u A.η e).1 ≤ B.E) (hfit : B.fits kind A.u A.η A.Ω e) {noise : Nat → Fin d → F}
    (hn : ∀ j k, A.fin (noise j k) ∧ |A.val (noise j k)| ≤ B.noise.mag) (hn0 : 0 ≤ B.noise.err) {p p' : LdParticle F d}
    {q q' : LdParticle ℝ d} (h : NearWalker A B kind c c' e p q) (hp : walkerStep kind c noise p = .ok p')
    (hq : walkerStep kind c' (fun j k => A.val (noise j k)) q = .ok q') (hin : Inside B kind q') :
    NearWalker A B kind c c' (B.next kind A.u A.η e) p' q' := by
  obtain ⟨_, hcons, hmass, hc2⟩ := walkerStep_ok hp
  obtain ⟨_, hcons', hmass', hc2'⟩ := walkerStep_ok hq
  have hnoise : ∀ j k, Near A B.noise (noise j k) (A.val (noise j k)) := fun j k =>
    ⟨(hn j k).1, by simpa using hn0, (hn j k).2⟩
  have hforce : ∀ k, Near A (B.force e.1) (p.forces k) (q.forces k) := by
    intro k
    have h1 := hc.force e.1 p.pos q.pos hE h.pos k
    have h2 := congrArg Prod.snd h.computed
    have h3 := congrArg Prod.snd h.exact
    dsimp only at h2 h3
    rw [← h2, ← h3] at h1
    exact h1
  have hm : A.fin p'.mass ∧ A.val p'.mass = B.mass ∧ q'.mass = B.mass := by
    rw [hmass, hmass']
    exact h.mass
  have h2' : Near A B.c2 p'.c2 q'.c2 := by
    rw [hc2, hc2']
    exact h.c2
  cases kind with
  | overdamped =>
    obtain ⟨pos, mom, hb, rfl⟩ := overdampedStep_ok hp
    obtain ⟨pos', mom', hb', rfl⟩ := overdampedStep_ok hq
    refine ⟨?_, fun h => by simp at h, hm, h2', hcons, hcons'⟩
    have hraw : ∀ k, Near A (B.euler A.u A.η e.1) (p.pos k + (c.dt * p.forces k + c.noiseFactor * noise 0 k))
        (q.pos k + (c'.dt * q.forces k + c'.noiseFactor * A.val (noise 0 k))) := by
      intro k
      obtain ⟨f1, f2, f3, f4⟩ := hfit
      exact near_add (h.pos k) (near_add (near_mul hc.dt (hforce k) f1) (near_mul hc.noiseFactor (hnoise 0 k) f2) f3) f4
    rcases hc.bc with ⟨n1, n2⟩ | ⟨_, n1, n2, hlen, hr, hfin⟩
    · unfold Potential.applyBc at hb hb'
      rw [n1] at hb
      rw [n2] at hb'
      cases hb
      cases hb'
      exact fun k => near_mono (hraw k) le_rfl (hin.1 k)
    · have hlen' : d ≤ c'.pot.ranges.length := by
        rw [hr]
        simpa using hlen
      unfold Potential.applyBc at hb hb'
      rw [n1] at hb
      rw [n2] at hb'
      dsimp only at hb hb'
      rw [applyReflective_eq _ hlen] at hb
      rw [applyReflective_eq _ hlen'] at hb'
      cases hb
      cases hb'
      intro k
      have hg : c'.pot.ranges.get (k.castLE hlen') = (A.val (c.pot.ranges.get (k.castLE hlen)).1,
          A.val (c.pot.ranges.get (k.castLE hlen)).2) := by
        simp [hr]
      obtain ⟨g1, g2, g3⟩ := hfin _ (List.get_mem c.pot.ranges (k.castLE hlen))
      have hk := hin.1 k
      dsimp only at hk ⊢
      rw [hg] at hk ⊢
      exact near_reflect (hraw k) g1 g2 g3 hk
  | bussi =>
    obtain ⟨pos, mom, hb, rfl⟩ := bussiStep_ok hp
    obtain ⟨pos', mom', hb', rfl⟩ := bussiStep_ok hq
    obtain ⟨f1, f2, f3, f4, f5⟩ := hfit
    have hbc : c.pot.bc = none ∧ c'.pot.bc = none := by
      rcases hc.bc with h | ⟨h, _⟩
      · exact h
      · cases h
    unfold Potential.applyBc at hb hb'
    rw [hbc.1] at hb
    rw [hbc.2] at hb'
    cases hb
    cases hb'
    have hmid : ∀ k, Near A (B.middle A.u A.η e) (kick c.half c.dt (thermostat c.c1 p.c2 p.mom (noise 0)) p.forces k)
        (kick c'.half c'.dt (thermostat c'.c1 q.c2 q.mom (fun k => A.val (noise 0 k))) q.forces k) := fun k =>
      near_kick hc.half hc.dt (near_thermostat hc.c1 h.c2 (h.mom rfl k) (hnoise 0 k) f1) (hforce k) f2
    have hpos : ∀ k, Near A ⟨(B.next .bussi A.u A.η e).1, B.X⟩
        (drift c.dt p.mass p.pos (kick c.half c.dt (thermostat c.c1 p.c2 p.mom (noise 0)) p.forces) k)
        (drift c'.dt q.mass q.pos (kick c'.half c'.dt (thermostat c'.c1 q.c2 q.mom (fun k => A.val (noise 0 k))) q.forces) k) := by
      intro k
      refine near_mono (b := B.drift A.u A.η e.1 (B.middle A.u A.η e)) (c := ⟨(B.next .bussi A.u A.η e).1, B.X⟩) ?_ le_rfl (hin.1 k)
      have := near_drift hc.dt (h.pos k) (hmid k) h.mass.1 h.mass.2.1 hc.mass f3
      unfold drift
      rw [h.mass.2.2]
      exact this
    refine ⟨hpos, fun _ k => ?_, hm, h2', hcons, hcons'⟩
    refine near_mono (b := B.thermostat A.u A.η (B.kick A.u A.η (B.next .bussi A.u A.η e).1 (B.middle A.u A.η e)))
      (c := ⟨(B.next .bussi A.u A.η e).2, B.P⟩) ?_ le_rfl (hin.2 rfl k)
    exact near_thermostat hc.c1 h.c2 (near_kick hc.half hc.dt (hmid k) (hc.force _ _ _ hE' hpos k) f4) (hnoise 1 k) f5

/-- A boundary condition as in `NearCfg` raises no errors. -/
theorem nearCfg_total {kind : LdKind} {c : LdCfg F d} {c' : LdCfg ℝ d} (hc : NearCfg A B kind c c') :
    (∀ pos mom, ∃ x, c.pot.applyBc pos mom = .ok x) ∧ ∀ pos mom, ∃ x, c'.pot.applyBc pos mom = .ok x := by
  unfold Potential.applyBc
  rcases hc.bc with ⟨n1, n2⟩ | ⟨_, n1, n2, hlen, hr, _⟩
  · rw [n1, n2]
    exact ⟨fun _ _ => ⟨_, rfl⟩, fun _ _ => ⟨_, rfl⟩⟩
  · rw [n1, n2]
    have hlen' : d ≤ c'.pot.ranges.length := by
      rw [hr]
      simpa using hlen
    exact ⟨fun _ _ => ⟨_, applyReflective_eq _ hlen _ _⟩, fun _ _ => ⟨_, applyReflective_eq _ hlen' _ _⟩⟩

/-- The generator of the exact dynamics returns the values of the computed random numbers. -/
def valNormal {R : Type} (A : Rounding F) (normal : NormalOps R F d) : NormalOps R ℝ d :=
  fun r => (fun k => A.val ((normal r).1 k), (normal r).2)

omit [DecidableLT F] in
theorem valNormal_draw {R : Type} (normal : NormalOps R F d) (r : R) (i : Nat) :
    drawState (valNormal A normal) i r = drawState normal i r ∧
      draw (valNormal A normal) r i = fun k => A.val (draw normal r i k) := by
  have h : ∀ i, drawState (valNormal A normal) i r = drawState normal i r := fun i => rfl
  refine ⟨h i, ?_⟩
  unfold draw
  rw [h]
  rfl

/-- **C109.** Rounding errors after `n` steps of all walkers: if the exact dynamics with the same random numbers stays inside of
the bounds and no step overflows, the computed positions and momenta differ from the exact ones at most by the `n`-th iterate of
`next`. -/
theorem ld_rounding {kind : LdKind} {c : LdCfg F d} {c' : LdCfg ℝ d} (hc : NearCfg A B kind c c') {R : Type}
    (normal : NormalOps R F d) (s : LdState F d R) (s' : LdState ℝ d R) (hrng : s.rng = s'.rng)
    (hn : ∀ j k, A.fin (draw normal s.rng j k) ∧ |A.val (draw normal s.rng j k)| ≤ B.noise.mag) (hn0 : 0 ≤ B.noise.err)
    (e : ℝ × ℝ) (hlen : s.particles.length = s'.particles.length)
    (h0 : ∀ (i : Nat) p q, s.particles[i]? = some p → s'.particles[i]? = some q → NearWalker A B kind c c' e p q) (n : Nat)
    (hE : ∀ m ≤ n, ((B.next kind A.u A.η)^[m] e).1 ≤ B.E)
    (hfit : ∀ m < n, B.fits kind A.u A.η A.Ω ((B.next kind A.u A.η)^[m] e))
    (hin : ∀ m ≤ n, ∀ t', LdState.iter kind c' (valNormal A normal) m s' = .ok t' → ∀ q ∈ t'.particles, Inside B kind q) :
    ∃ t t', LdState.iter kind c normal n s = .ok t ∧ LdState.iter kind c' (valNormal A normal) n s' = .ok t' ∧
      t.particles.length = s.particles.length ∧ t'.particles.length = s.particles.length ∧
      ∀ (i : Nat) p q, t.particles[i]? = some p → t'.particles[i]? = some q →
        ∀ k, |A.val (p.pos k) - q.pos k| ≤ ((B.next kind A.u A.η)^[n] e).1 ∧
          (kind = .bussi → |A.val (p.mom k) - q.mom k| ≤ ((B.next kind A.u A.η)^[n] e).2) := by
  obtain ⟨tot, tot'⟩ := nearCfg_total hc
  have key : ∃ t t', LdState.iter kind c normal n s = .ok t ∧ LdState.iter kind c' (valNormal A normal) n s' = .ok t' ∧
      t.particles.length = s.particles.length ∧ t'.particles.length = s.particles.length ∧ t.rng = t'.rng ∧
      (∃ j, t.rng = drawState normal j s.rng) ∧
      ∀ (i : Nat) p q, t.particles[i]? = some p → t'.particles[i]? = some q →
        NearWalker A B kind c c' ((B.next kind A.u A.η)^[n] e) p q := by
    induction n with
    | zero => exact ⟨s, s', rfl, rfl, rfl, hlen.symm, hrng, ⟨0, rfl⟩, h0⟩
    | succ n ih =>
      obtain ⟨t, t', h1, h2, h3, h4, h5, ⟨j, h6⟩, h7⟩ := ih (fun m hm => hE m (by omega)) (fun m hm => hfit m (by omega))
        (fun m hm => hin m (by omega))
      obtain ⟨x, hx⟩ := ldLoop_total kind c normal (fun noise p => walkerStep_total tot noise p) t.particles t.rng
      obtain ⟨x', hx'⟩ := ldLoop_total kind c' (valNormal A normal) (fun noise p => walkerStep_total tot' noise p) t'.particles t'.rng
      have hr : t.run kind c normal = .ok ⟨x.1, x.2⟩ := by
        unfold LdState.run
        rw [hx]
        rfl
      have hr' : t'.run kind c' (valNormal A normal) = .ok ⟨x'.1, x'.2⟩ := by
        unfold LdState.run
        rw [hx']
        rfl
      have hi : LdState.iter kind c normal (n + 1) s = .ok ⟨x.1, x.2⟩ := by
        unfold LdState.iter
        rw [h1, ok_bind, hr]
      have hi' : LdState.iter kind c' (valNormal A normal) (n + 1) s' = .ok ⟨x'.1, x'.2⟩ := by
        unfold LdState.iter
        rw [h2, ok_bind, hr']
      obtain ⟨a1, a2, a3⟩ := run_ok hr
      obtain ⟨b1, b2, b3⟩ := run_ok hr'
      dsimp only at a1 a2 a3 b1 b2 b3
      refine ⟨_, _, hi, hi', a2.trans h3, b2.trans h4, ?_, ⟨t.particles.length * kind.draws + j, ?_⟩, ?_⟩
      · dsimp only
        rw [a1, b1, (valNormal_draw normal _ _).1, h3, h4, h5]
      · dsimp only
        rw [a1, h6, ← drawState_add]
      · intro i p q hp hq
        have hip : i < t.particles.length := by
          have := (List.getElem?_eq_some_iff.1 hp).1
          dsimp only at this
          omega
        have hiq : i < t'.particles.length := by omega
        obtain ⟨p', hp', hs⟩ := a3 i _ (List.getElem?_eq_getElem hip)
        obtain ⟨q', hq', hs'⟩ := b3 i _ (List.getElem?_eq_getElem hiq)
        dsimp only at hp hq
        rw [hp] at hp'
        rw [hq] at hq'
        cases hp'
        cases hq'
        rw [Function.iterate_succ_apply']
        refine walker_rounding hc (hE n (by omega)) ?_ (hfit n (by omega)) ?_ hn0
          (h7 i _ _ (List.getElem?_eq_getElem hip) (List.getElem?_eq_getElem hiq)) hs ?_ ?_
        · have := hE (n + 1) le_rfl
          rwa [Function.iterate_succ_apply'] at this
        · intro j' k
          rw [h6, draw_add]
          exact hn _ k
        · rw [← hs']
          congr 1
          funext j'
          rw [(valNormal_draw normal _ _).2, h5]
        · exact hin (n + 1) le_rfl _ hi' q (List.mem_of_getElem? hq)
  obtain ⟨t, t', h1, h2, h3, h4, _, _, h7⟩ := key
  exact ⟨t, t', h1, h2, h3, h4, fun i p q hp hq k =>
    ⟨((h7 i p q hp hq).pos k).2.1, fun hk => ((h7 i p q hp hq).mom hk k).2.1⟩⟩

/-- With a reflective boundary in the exact dynamics, positions are bounded by the ranges. -/
theorem inside_reflective {c' : LdCfg ℝ d} (hbc : c'.pot.bc = some .reflective) (hd : d ≤ c'.pot.ranges.length)
    (hr : ∀ r ∈ c'.pot.ranges, r.1 ≤ r.2 ∧ -B.X ≤ r.1 ∧ r.2 ≤ B.X) {R : Type} (normal : NormalOps R ℝ d) (s' : LdState ℝ d R)
    (h0 : ∀ q ∈ s'.particles, Inside B .overdamped q) (m : Nat) (t' : LdState ℝ d R)
    (h : LdState.iter .overdamped c' normal m s' = .ok t') : ∀ q ∈ t'.particles, Inside B .overdamped q := by
  cases m with
  | zero =>
    cases h
    exact h0
  | succ m =>
    unfold LdState.iter at h
    obtain ⟨t, _, ht⟩ := bind_ok h
    intro q hq
    obtain ⟨p, _, noise, hw⟩ := run_mem ht q hq
    obtain ⟨⟨x, m, m', hb⟩, _⟩ := walkerStep_ok hw
    unfold Potential.applyBc at hb
    rw [hbc] at hb
    simp only at hb
    obtain ⟨q', mq, hq', hspec⟩ := reflective_spec c'.pot.ranges hd (fun r h => (hr r h).1) x m
    rw [hq'] at hb
    cases hb
    refine ⟨fun k => abs_le.2 ?_, fun h => by cases h⟩
    have h1 := (hspec k).inside
    have h2 := hr _ (List.get_mem c'.pot.ranges (k.castLE hd))
    exact ⟨h2.2.1.trans h1.1, h1.2.trans h2.2.2⟩

end

/-! ### The bound for overdamped dynamics in closed form -/

/-- Factor by which an error of the position grows in a step. -/
def LdBnd.growth (B : LdBnd) (u : ℝ) : ℝ := (1 + u) * (1 + (1 + u) ^ 2 * (B.dt.mag + B.dt.err) * B.L)

theorem euler_affine (B : LdBnd) (u η e : ℝ) : (B.euler u η e).err = B.growth u * e + (B.euler u η 0).err := by
  unfold LdBnd.euler LdBnd.growth LdBnd.force Bnd.add Bnd.mul
  dsimp only
  ring

/-- **C109.** For overdamped dynamics the bound is a geometric sum of the rounding error of one step. -/
theorem euler_closed (B : LdBnd) (u η : ℝ) (e : ℝ × ℝ) (n : Nat) :
    ((B.next .overdamped u η)^[n] e).1 =
      B.growth u ^ n * e.1 + (B.euler u η 0).err * ∑ i ∈ Finset.range n, B.growth u ^ i := by
  induction n with
  | zero => simp
  | succ n ih =>
    rw [Function.iterate_succ_apply']
    change (B.euler u η ((B.next .overdamped u η)^[n] e).1).err = _
    rw [euler_affine, ih, Finset.sum_range_succ', pow_zero, Finset.sum_congr rfl fun i _ => pow_succ (B.growth u) i,
      ← Finset.sum_mul]
    ring

/-- It is at most linear in the number of steps times the growth. -/
theorem euler_bound (B : LdBnd) (u η : ℝ) (hg : 1 ≤ B.growth u) (h0 : 0 ≤ (B.euler u η 0).err) (n : Nat) (e : ℝ × ℝ) :
    ((B.next .overdamped u η)^[n] e).1 ≤ B.growth u ^ n * (e.1 + n * (B.euler u η 0).err) := by
  rw [euler_closed]
  have : ∑ i ∈ Finset.range n, B.growth u ^ i ≤ n * B.growth u ^ n := by
    have := Finset.sum_le_card_nsmul (Finset.range n) (fun i => B.growth u ^ i) (B.growth u ^ n)
      (fun i hi => pow_le_pow_right₀ hg (Finset.mem_range.1 hi).le)
    simpa using this
  nlinarith [mul_le_mul_of_nonneg_left this h0]

/-! ### Example -/

/-- A harmonic potential between -2 and 2, with any kind of numbers. -/
def springBox {F : Type} [Mul F] [Neg F] (half lo hi : F) : Potential F 1 :=
  ⟨fun x => half * x 0 * x 0, fun x k => -x k, fun x => (half * x 0 * x 0, fun k => -x k), [(lo, hi)], some .reflective⟩

/-- Integrator with 53 digits, time step 0.01. -/
def springNum : LdCfg Num53 1 := ⟨springBox ⟨1 / 2⟩ ⟨-2⟩ ⟨2⟩, ⟨0.01⟩, ⟨1⟩, ⟨1 / 2⟩, ⟨1⟩, fun _ => ⟨0⟩, ⟨Real.sqrt (2 * 0.01)⟩⟩

/-- Bounds for random numbers up to 10. -/
def springBnd : LdBnd where
  dt := Bnd.exact 0.01
  half := Bnd.exact 1
  c1 := Bnd.exact 1
  c2 := Bnd.exact 0
  noiseFactor := Bnd.exact 0.2
  noise := Bnd.exact 10
  mass := 1
  X := 2
  P := 0
  Φ := 2
  L := 1
  φ := 0
  E := 1

theorem springBnd_small : springBnd.growth (2⁻¹ ^ 53) ≤ 1.011 ∧ 1 ≤ springBnd.growth (2⁻¹ ^ 53) ∧
    0 ≤ (springBnd.euler (2⁻¹ ^ 53) 0 0).err ∧ (springBnd.euler (2⁻¹ ^ 53) 0 0).err ≤ 1e-15 := by
  unfold LdBnd.growth LdBnd.euler LdBnd.force springBnd Bnd.add Bnd.mul Bnd.exact
  norm_num

theorem springBnd_steps (n : Nat) (hn : n ≤ 100) : ((springBnd.next .overdamped (2⁻¹ ^ 53) 0)^[n] (0, 0)).1 ≤ 1e-12 := by
  obtain ⟨h1, h2, h3, h4⟩ := springBnd_small
  refine (euler_bound springBnd _ 0 h2 h3 n (0, 0)).trans ?_
  have h5 : springBnd.growth (2⁻¹ ^ 53) ^ n ≤ 1.011 ^ 100 :=
    (pow_le_pow_right₀ h2 hn).trans (pow_le_pow_left₀ (by linarith) h1 100)
  have h6 : (n : ℝ) ≤ 100 := by exact_mod_cast hn
  have h7 : (n : ℝ) * (springBnd.euler (2⁻¹ ^ 53) 0 0).err ≤ 100 * 1e-15 := mul_le_mul h6 h4 h3 (by norm_num)
  have h8 := mul_le_mul h5 h7 (by positivity) (by norm_num)
  simp only [zero_add]
  refine h8.trans ?_
  norm_num

theorem springNum_near (Ω : ℝ) :
    NearCfg (rounding53 Ω) springBnd .overdamped springNum (overdampedCfg (springBox (1 / 2) (-2) 2) 0.01) where
  dt := ⟨trivial, by simp [springNum, overdampedCfg, rounding53, springBnd, Bnd.exact], by
    simp only [overdampedCfg, springBnd, Bnd.exact]; norm_num [abs_of_pos]⟩
  half := ⟨trivial, by simp [springNum, overdampedCfg, rounding53, springBnd, Bnd.exact], by
    simp only [overdampedCfg, springBnd, Bnd.exact]; norm_num [abs_of_pos]⟩
  c1 := ⟨trivial, by simp [springNum, overdampedCfg, rounding53, springBnd, Bnd.exact], by
    simp only [overdampedCfg, springBnd, Bnd.exact]; norm_num⟩
  noiseFactor := ⟨trivial, by simp [springNum, overdampedCfg, rounding53, springBnd, Bnd.exact], by
    simp only [overdampedCfg, springBnd, Bnd.exact]
    rw [abs_of_nonneg (Real.sqrt_nonneg _)]
    exact Real.sqrt_le_iff.2 (by norm_num)⟩
  mass := one_pos
  force := by
    intro e x y _ h k
    have h1 := near_neg (h k)
    refine near_mono h1 ?_ h1.2.2
    simp [LdBnd.force, springBnd]
  bc := Or.inr ⟨rfl, rfl, rfl, le_rfl, by simp [overdampedCfg, springBox, springNum, rounding53],
    by simp [springNum, springBox, rounding53]⟩

/-- Walkers at rest, computed. -/
def springStart {R : Type} (r : R) (xs : List ℝ) : LdState Num53 1 R :=
  ⟨xs.map (fun x => ⟨fun _ => ⟨x⟩, fun _ => ⟨0⟩, ⟨1⟩, (springNum.pot.evaluate (fun _ => ⟨x⟩)).1,
    (springNum.pot.evaluate (fun _ => ⟨x⟩)).2, ⟨0⟩⟩), r⟩

/-- Walkers at rest, exact. -/
def springExact {R : Type} (r : R) (xs : List ℝ) : LdState ℝ 1 R :=
  ⟨xs.map (fun x => ⟨fun _ => x, fun _ => 0, 1, 1 / 2 * x * x, fun _ => -x, 0⟩), r⟩

/-- Walkers that start anywhere between -2 and 2: after at most 100 steps the positions computed with 53 digits are exact up to
1e-12, for all random numbers up to 10. -/
theorem spring_rounding {R : Type} (normal : NormalOps R Num53 1) (hn : ∀ r k, |((normal r).1 k).val| ≤ 10) (r : R) (xs : List ℝ)
    (hx : ∀ x ∈ xs, |x| ≤ 2) (n : Nat) (hn' : n ≤ 100) :
    ∃ t t', LdState.iter .overdamped springNum normal n (springStart r xs) = .ok t ∧
      LdState.iter .overdamped (overdampedCfg (springBox (1 / 2) (-2) 2) 0.01) (valNormal (rounding53 1e300) normal) n
        (springExact r xs) = .ok t' ∧
      t.particles.length = xs.length ∧ t'.particles.length = xs.length ∧
      ∀ (i : Nat) p q, t.particles[i]? = some p → t'.particles[i]? = some q → |(p.pos 0).val - q.pos 0| ≤ 1e-12 := by
  have hsmall : ∀ m ≤ n, ((springBnd.next .overdamped (2⁻¹ ^ 53) 0)^[m] (0, 0)).1 ≤ 1e-12 := fun m hm =>
    springBnd_steps m (hm.trans hn')
  have hpos : ∀ m, 0 ≤ ((springBnd.next .overdamped (2⁻¹ ^ 53) 0)^[m] (0, 0)).1 := by
    intro m
    obtain ⟨_, h2, h3, _⟩ := springBnd_small
    rw [euler_closed, mul_zero, zero_add]
    exact mul_nonneg h3 (Finset.sum_nonneg fun i _ => by positivity)
  have hw : ∀ (i : Nat) p q, (springStart r xs).particles[i]? = some p → (springExact r xs).particles[i]? = some q →
      NearWalker (rounding53 1e300) springBnd .overdamped springNum (overdampedCfg (springBox (1 / 2) (-2) 2) 0.01) (0, 0) p q := by
    intro i p q hp hq
    simp only [springStart, springExact, List.getElem?_map, Option.map_eq_some_iff] at hp hq
    obtain ⟨x, hx1, rfl⟩ := hp
    obtain ⟨x', hx2, rfl⟩ := hq
    rw [hx1] at hx2
    cases hx2
    exact ⟨fun k => ⟨trivial, by simp [rounding53], hx x (List.mem_of_getElem? hx1)⟩, (fun h => by cases h), ⟨trivial, rfl, rfl⟩,
      ⟨trivial, by simp [rounding53, springBnd, Bnd.exact], by simp [springBnd, Bnd.exact]⟩, rfl, rfl⟩
  have hfit : ∀ m < n, springBnd.fits .overdamped (2⁻¹ ^ 53) 0 1e300 ((springBnd.next .overdamped (2⁻¹ ^ 53) 0)^[m] (0, 0)) := by
    intro m hm
    have h1 := hsmall m hm.le
    have h0 := hpos m
    change springBnd.eulerFits (2⁻¹ ^ 53) 0 1e300 ((springBnd.next .overdamped (2⁻¹ ^ 53) 0)^[m] (0, 0)).1
    generalize ((springBnd.next .overdamped (2⁻¹ ^ 53) 0)^[m] (0, 0)).1 = e at h0 h1
    unfold LdBnd.eulerFits LdBnd.force springBnd Bnd.add Bnd.mul Bnd.mulTop Bnd.addTop Bnd.exact
    dsimp only
    norm_num
    refine ⟨?_, ?_, ?_⟩ <;> linarith
  have hin : ∀ m ≤ n, ∀ t', LdState.iter .overdamped (overdampedCfg (springBox (1 / 2) (-2) 2) 0.01)
      (valNormal (rounding53 1e300) normal) m (springExact r xs) = .ok t' → ∀ q ∈ t'.particles, Inside springBnd .overdamped q := by
    intro m _ t' ht'
    refine inside_reflective rfl le_rfl (by simp [overdampedCfg, springBox, springBnd]) _ _ ?_ m t' ht'
    intro q hq
    simp only [springExact, List.mem_map] at hq
    obtain ⟨x, hx1, rfl⟩ := hq
    exact ⟨fun k => hx x hx1, fun h => by cases h⟩
  obtain ⟨t, t', h1, h2, h3, h4, h5⟩ := ld_rounding (springNum_near 1e300) normal (springStart r xs) (springExact r xs) rfl
    (fun j k => ⟨trivial, hn _ k⟩) le_rfl (0, 0) (by simp [springStart, springExact]) hw n
    (fun m hm => (hsmall m hm).trans (by norm_num [springBnd])) hfit hin
  refine ⟨t, t', h1, h2, by simpa [springStart] using h3, by simpa [springStart] using h4, fun i p q hp hq => ?_⟩
  exact ((h5 i p q hp hq 0).1).trans (hsmall n le_rfl)

/-- A spring without boundary, inertial dynamics with thermostat constants 0.9 and 0.4. -/
def springPot {F : Type} [Mul F] [Neg F] (half : F) : Potential F 1 :=
  ⟨fun x => half * x 0 * x 0, fun x k => -x k, fun x => (half * x 0 * x 0, fun k => -x k), [], none⟩

def inertNum : LdCfg Num53 1 := ⟨springPot ⟨1 / 2⟩, ⟨0.1⟩, ⟨1⟩, ⟨1 / 2⟩, ⟨0.9⟩, fun _ => ⟨0.4⟩, ⟨0⟩⟩

def inertExact : LdCfg ℝ 1 := ⟨springPot (1 / 2), 0.1, 1, 1 / 2, 0.9, fun _ => 0.4, 0⟩

def inertBnd : LdBnd where
  dt := Bnd.exact 0.1
  half := Bnd.exact (1 / 2)
  c1 := Bnd.exact 0.9
  c2 := Bnd.exact 0.4
  noiseFactor := Bnd.exact 0
  noise := Bnd.exact 10
  mass := 1
  X := 2
  P := 8
  Φ := 2
  L := 1
  φ := 0
  E := 1

theorem inert_near (Ω : ℝ) : NearCfg (rounding53 Ω) inertBnd .bussi inertNum inertExact where
  dt := ⟨trivial, by simp [inertNum, inertExact, rounding53, inertBnd, Bnd.exact], by
    simp only [inertExact, inertBnd, Bnd.exact]; norm_num [abs_of_pos]⟩
  half := ⟨trivial, by simp [inertNum, inertExact, rounding53, inertBnd, Bnd.exact], by
    simp only [inertExact, inertBnd, Bnd.exact]; norm_num [abs_of_pos]⟩
  c1 := ⟨trivial, by simp [inertNum, inertExact, rounding53, inertBnd, Bnd.exact], by
    simp only [inertExact, inertBnd, Bnd.exact]; norm_num [abs_of_pos]⟩
  noiseFactor := ⟨trivial, by simp [inertNum, inertExact, rounding53, inertBnd, Bnd.exact], by
    simp [inertExact, inertBnd, Bnd.exact]⟩
  mass := one_pos
  force := by
    intro e x y _ h k
    have h1 := near_neg (h k)
    refine near_mono h1 ?_ h1.2.2
    simp [LdBnd.force, inertBnd]
  bc := Or.inl ⟨rfl, rfl⟩

/-- Bounds of the stages of the step, in numbers. -/
theorem inert_numbers :
    inertBnd.thermostat (2⁻¹ ^ 53) 0 ⟨0, 8⟩ = ⟨25220157913274779/10141204801825835211973625643008, 56/5⟩ ∧
    inertBnd.kick (2⁻¹ ^ 53) 0 0 ⟨25220157913274779/10141204801825835211973625643008, 56/5⟩ = ⟨27502947422551668148313020101034097/7307508186654514591018424163581415098279662714880, 113/10⟩ ∧
    inertBnd.drift (2⁻¹ ^ 53) 0 0 ⟨27502947422551668148313020101034097/7307508186654514591018424163581415098279662714880, 113/10⟩ = ⟨10410542525477236876490260990928828930453763497184981055992900242329232962318919293/10679935179604550411975108530847760573013522611783263849735208039111098628903202750114810434682880, 313/100⟩ ∧
    inertBnd.kick (2⁻¹ ^ 53) 0 (10410542525477236876490260990928828930453763497184981055992900242329232962318919293/10679935179604550411975108530847760573013522611783263849735208039111098628903202750114810434682880) ⟨27502947422551668148313020101034097/7307508186654514591018424163581415098279662714880, 113/10⟩ = ⟨796085456738850846647284123283437121628348186827859441358177537524515608060509574174675835980566210246862726906156006318881466902141/156087427515799611569079861489658315287429907133248557542957847981268586940988281006015305153174598557991346556070331144772398783964414265314508800, 57/5⟩ ∧
    inertBnd.thermostat (2⁻¹ ^ 53) 0 ⟨796085456738850846647284123283437121628348186827859441358177537524515608060509574174675835980566210246862726906156006318881466902141/156087427515799611569079861489658315287429907133248557542957847981268586940988281006015305153174598557991346556070331144772398783964414265314508800, 57/5⟩ = ⟨982240819209812342548395338494570364538849912394331786051279718791532395604606302825734680647510680614090179282264862270073825526231633445939911450359075823270074981/126633165554229521438977290762059361297987250739820462036000284719563379254544315991201997343356439034674007770120263341747898897565056619503383631412169301973302667340133957632000, 713/50⟩ := by
  refine ⟨?_, ?_, ?_, ?_, ?_⟩ <;>
  · simp only [LdBnd.drift, LdBnd.kick, LdBnd.thermostat, LdBnd.force, inertBnd, Bnd.exact, Bnd.add, Bnd.mul, Bnd.div, Bnd.mk.injEq]
    norm_num

/-- One step of inertial dynamics from every position between -1 and 1: positions and momenta are exact up to 1e-14. -/
example (noise : Nat → Fin 1 → Num53) (hn : ∀ j k, |(noise j k).val| ≤ 10) (x : ℝ) (hx : |x| ≤ 1) :
    ∃ p q, walkerStep .bussi inertNum noise ⟨fun _ => ⟨x⟩, fun _ => ⟨0⟩, ⟨1⟩, (inertNum.pot.evaluate (fun _ => ⟨x⟩)).1,
        (inertNum.pot.evaluate (fun _ => ⟨x⟩)).2, ⟨0.4⟩⟩ = .ok p ∧
      walkerStep .bussi inertExact (fun j k => (noise j k).val) ⟨fun _ => x, fun _ => 0, 1, 1 / 2 * x * x, fun _ => -x, 0.4⟩ = .ok q ∧
      ∀ k, |(p.pos k).val - q.pos k| ≤ 1e-14 ∧ |(p.mom k).val - q.mom k| ≤ 1e-14 := by
  refine ⟨_, _, rfl, rfl, ?_⟩
  obtain ⟨n1, n2, n3, n4, n5⟩ := inert_numbers
  have hnext : inertBnd.next .bussi (2⁻¹ ^ 53) 0 (0, 0) = (10410542525477236876490260990928828930453763497184981055992900242329232962318919293/10679935179604550411975108530847760573013522611783263849735208039111098628903202750114810434682880, 982240819209812342548395338494570364538849912394331786051279718791532395604606302825734680647510680614090179282264862270073825526231633445939911450359075823270074981/126633165554229521438977290762059361297987250739820462036000284719563379254544315991201997343356439034674007770120263341747898897565056619503383631412169301973302667340133957632000) := by
    simp only [LdBnd.next, LdBnd.middle]
    rw [show inertBnd.P = 8 from rfl, n1, n2, n3, n4, n5]
  have hx2 : |x| ≤ 2 := hx.trans (by norm_num)
  have h := walker_rounding (inert_near 1e300) (e := (0, 0)) (by norm_num [inertBnd]) ?_ ?_ (noise := noise)
    (fun j k => ⟨trivial, hn j k⟩) le_rfl
    (p := ⟨fun _ => ⟨x⟩, fun _ => ⟨0⟩, ⟨1⟩, (inertNum.pot.evaluate (fun _ => ⟨x⟩)).1, (inertNum.pot.evaluate (fun _ => ⟨x⟩)).2, ⟨0.4⟩⟩)
    (q := ⟨fun _ => x, fun _ => 0, 1, 1 / 2 * x * x, fun _ => -x, 0.4⟩)
    ⟨fun k => ⟨trivial, by simp [rounding53], hx2⟩, fun _ k => ⟨trivial, by simp [rounding53], by simp [inertBnd]⟩, ⟨trivial, rfl, rfl⟩,
      ⟨trivial, by simp [rounding53, inertBnd, Bnd.exact], by simp only [inertBnd, Bnd.exact]; norm_num [abs_of_pos]⟩, rfl, rfl⟩ rfl rfl ?_
  · intro k
    refine ⟨((h.pos k).2.1).trans ?_, ((h.mom rfl k).2.1).trans ?_⟩
    · change (inertBnd.next .bussi (2⁻¹ ^ 53) 0 (0, 0)).1 ≤ _
      rw [hnext]
      norm_num
    · change (inertBnd.next .bussi (2⁻¹ ^ 53) 0 (0, 0)).2 ≤ _
      rw [hnext]
      norm_num
  · change (inertBnd.next .bussi (2⁻¹ ^ 53) 0 (0, 0)).1 ≤ _
    rw [hnext]
    norm_num [inertBnd]
  · change inertBnd.fits .bussi (2⁻¹ ^ 53) 0 1e300 (0, 0)
    simp only [LdBnd.fits, LdBnd.middle]
    rw [show inertBnd.P = 8 from rfl, n1, n2, n3, n4]
    refine ⟨?_, ?_, ?_, ?_, ?_⟩ <;>
    · simp only [LdBnd.thermostatFits, LdBnd.kickFits, LdBnd.driftFits, LdBnd.force, inertBnd, Bnd.exact, Bnd.mul, Bnd.div, Bnd.addTop,
        Bnd.mulTop, Bnd.divTop]
      norm_num
  · clear n1 n2 n3 n4 n5 hnext
    have h0 := abs_le.1 (hn 0 0)
    have h1 := abs_le.1 (hn 1 0)
    have h2 := abs_le.1 hx
    refine ⟨fun k => ?_, fun _ k => ?_⟩ <;>
    · have hk : k = 0 := Subsingleton.elim _ _
      subst hk
      simp only [bussiFinish, drift, kick, thermostat, inertExact, springPot, inertBnd, rounding53]
      rw [abs_le]
      constructor <;> linarith

end
end Bdld
