import Verif.Lemmas.Trajectory

/-
C02, C03: what the trajectory files contain, for every schedule of steps and additional writes.
-/

namespace Bdld
open Spec

/-- **C02.** Starting from any buffer contents (`gt`, `gp`, `gm`), for every schedule `es` of time steps
and additional writes, no call raises, and the file of particle `i` consists of exactly one row for each
multiple of `stride` up to the last save, in chronological order, with the values of that time step. -/
theorem trajectory_files {F : Type _} (c : TrajCfg F) (hist : Nat → Snapshot F)
    (hh : GoodHist c hist) (hs : 0 < c.stride) (hW : 0 < c.writeStride)
    (gt : Nat → F) (gp gm : Nat → List (List F)) (es : List Event) :
    ∃ s, trajExec c hist es 0 (TrajState.init c true gt gp gm) = .ok s ∧
      s.files = some ((List.range c.nParticles).map (fun i =>
        (sampledSteps c.stride 0 (lastSave c.writeStride 0 0 es)).map
          (trajRow c.timeOf hist c.storeMomentum i))) := by
  rcases Nat.eq_zero_or_pos c.nParticles with h0 | hn
  · obtain ⟨s, h1, _, h3, _⟩ := exec_nofiles c hist hh hW es 0 (TrajState.init c true gt gp gm)
      (init_inv c hist true gt gp gm) (Or.inr (by simp [TrajState.init, h0]))
    exact ⟨s, h1, by rw [h3]; simp [TrajState.init, h0]⟩
  · obtain ⟨s, h1, _, h3⟩ := exec_inv c hist hh hs hW hn es 0 0 (TrajState.init c true gt gp gm)
      (init_inv c hist true gt gp gm)
      ⟨rfl, le_refl _, by simpa using hW, by
        simp only [TrajState.init, if_true, sampledSteps_self, List.map_nil]
        rw [List.map_const', List.length_range]⟩
    exact ⟨s, h1, h3.files⟩

/-- **C02**, complete simulation: after `n` steps and the final write the file of every particle holds
exactly the multiples of `stride` in `1..n`. -/
theorem trajectory_files_complete {F : Type _} (c : TrajCfg F) (hist : Nat → Snapshot F)
    (hh : GoodHist c hist) (hs : 0 < c.stride) (hW : 0 < c.writeStride)
    (gt : Nat → F) (gp gm : Nat → List (List F)) (n : Nat) :
    ∃ s, trajExec c hist (completeRun n) 0 (TrajState.init c true gt gp gm) = .ok s ∧
      s.files = some ((List.range c.nParticles).map (fun i =>
        (sampledSteps c.stride 0 n).map (trajRow c.timeOf hist c.storeMomentum i))) := by
  have hl : ∀ n now last, lastSave c.writeStride now last (completeRun n) = now + n := by
    intro n
    induction n with
    | zero => intro now last; rfl
    | succ n ih =>
      intro now last
      show lastSave c.writeStride (now + 1) _ (completeRun n) = _
      rw [ih]; omega
  obtain ⟨s, h1, h2⟩ := trajectory_files c hist hh hs hW gt gp gm (completeRun n)
  rw [hl n 0 0, Nat.zero_add] at h2
  exact ⟨s, h1, h2⟩

/-- The strides of a constructed action are always positive, so the hypotheses of C02 are met by every
`TrajectoryAction` the program can create. -/
theorem trajCfg_new_pos {F : Type _} (n : Nat) (stride writeStride : Option Nat) (m : Bool)
    (timeOf : Nat → F) :
    0 < (TrajCfg.new n stride writeStride m timeOf).stride ∧
    0 < (TrajCfg.new n stride writeStride m timeOf).writeStride := by
  constructor
  · rcases stride with _ | _ | k <;> simp [TrajCfg.new, pyOrNat]
  · rcases writeStride with _ | _ | k <;> simp [TrajCfg.new, pyOrNat]

/-- Non-vacuity: two particles, stride 2, buffer of 4 rows, an extra write after step 3, nine steps in
total; garbage in the buffers is `999`. -/
example :
    let c : TrajCfg Nat := TrajCfg.new 2 (some 2) (some 4) true (fun t => 10 * t)
    let hist : Nat → Snapshot Nat := fun t => ⟨[[t], [t + 100]], [[t + 200], [t + 300]]⟩
    GoodHist c hist ∧
    (trajExec c hist [.tick, .tick, .tick, .write, .tick, .tick, .tick, .write, .tick, .tick, .tick, .write] 0
      (TrajState.init c true (fun _ => 999) (fun _ => []) (fun _ => []))).map (·.files)
      = .ok (some [[[20, 2, 202], [40, 4, 204], [60, 6, 206], [80, 8, 208]],
                   [[20, 102, 302], [40, 104, 304], [60, 106, 306], [80, 108, 308]]]) := by
  refine ⟨fun t => ⟨rfl, rfl⟩, by decide +kernel⟩

/-- **C03.** Without a filename no schedule raises or creates a file, and after every schedule the rows
of the last `write_stride` steps hold the positions of these steps (so other actions can use them). -/
theorem trajectory_no_filename {F : Type _} (c : TrajCfg F) (hist : Nat → Snapshot F)
    (hh : GoodHist c hist) (hW : 0 < c.writeStride)
    (gt : Nat → F) (gp gm : Nat → List (List F)) (es : List Event) :
    ∃ s, trajExec c hist es 0 (TrajState.init c false gt gp gm) = .ok s ∧
      s.files = none ∧ s.lastWrite = 0 ∧
      ∀ t, 1 ≤ t → t ≤ stepsOf es → stepsOf es < t + c.writeStride →
        s.positions[(t - 1) % c.writeStride]? = some (hist t).pos := by
  obtain ⟨s, h1, h2, h3, h4⟩ := exec_nofiles c hist hh hW es 0 (TrajState.init c false gt gp gm)
      (init_inv c hist false gt gp gm) (Or.inl rfl)
  refine ⟨s, h1, h3, h4, ?_⟩
  intro t ht1 ht2 ht3
  have := h2.positions.2 t ht1 (by omega) (by omega)
  simpa using this

example : (trajExec (TrajCfg.new 1 none (some 2) false (fun t => t)) (fun t => ⟨[[t]], [[0]]⟩)
      [.tick, .write, .tick, .tick] 0
      (TrajState.init (TrajCfg.new 1 none (some 2) false (fun t => t)) false (fun _ => 7) (fun _ => [])
        (fun _ => []))).map (fun s => (s.files, s.positions)) = .ok (none, [[[3]], [[2]]]) := by
  decide +kernel

end Bdld
