import Verif.Lemmas.RingSet
import Verif.Lemmas.Except
import Verif.Props.Ring
import Verif.Spec.Trajectory

/-
Helper lemmas: the invariants of the trajectory action.
-/

namespace Bdld
open Spec

theorem npAssignRows_eq {α} (n : Nat) (rows : List α) (h : rows.length = n) :
    npAssignRows n rows = .ok rows := by
  unfold npAssignRows; rw [if_pos h]

theorem npColumn_map {α} (l : List Nat) (g : Nat → List (List α)) (i : Nat)
    (h : ∀ t ∈ l, i < (g t).length) :
    npColumn (l.map g) i = .ok (l.map (fun t => (g t).getD i [])) := by
  unfold npColumn
  rw [mapM_ok _ (fun r => r.getD i [])]
  · rw [List.map_map]; rfl
  · intro x hx
    obtain ⟨t, ht, rfl⟩ := List.mem_map.1 hx
    have := h t ht
    simp [this]

theorem zipWith_map_same {α β γ δ} (l : List α) (f : α → β) (g : α → γ) (k : β → γ → δ) :
    List.zipWith k (l.map f) (l.map g) = l.map (fun a => k (f a) (g a)) := by
  induction l with
  | nil => rfl
  | cons a l ih => simp [ih]

theorem saveData_eq {F} (c : TrajCfg F) (hist : Nat → Snapshot F) (hh : GoodHist c hist)
    (l : List Nat) (i : Nat) (hi : i < c.nParticles) (sm : List (List (List F)))
    (hsm : c.storeMomentum = true → sm = l.map (fun t => (hist t).mom)) :
    c.saveData (l.map c.timeOf) (l.map (fun t => (hist t).pos)) sm i
      = .ok (l.map (trajRow c.timeOf hist c.storeMomentum i)) := by
  unfold TrajCfg.saveData
  have h1 : npColumn (l.map (fun t => (hist t).pos)) i
      = .ok (l.map (fun t => (hist t).pos.getD i [])) :=
    npColumn_map l _ i (fun t _ => by rw [(hh t).1]; exact hi)
  have h2 : npColumn (l.map (fun t => (hist t).mom)) i
      = .ok (l.map (fun t => (hist t).mom.getD i [])) :=
    npColumn_map l _ i (fun t _ => by rw [(hh t).2]; exact hi)
  rw [h1]
  cases hm : c.storeMomentum with
  | false =>
    simp [npConcatCols, bind, Except.bind, pure, Except.pure, trajRow]
  | true =>
    rw [hsm hm]
    simp only [npConcatCols, List.map_map, List.length_map, if_true, bind, Except.bind, h2,
      zipWith_map_same]
    simp [trajRow]

/-- Invariant connecting the state with the history. -/
structure TrajInv {F : Type _} (c : TrajCfg F) (hist : Nat → Snapshot F) (now : Nat)
    (s : TrajState F) : Prop where
  times : IsRing s.times c.timeOf c.writeStride 1 now
  positions : IsRing s.positions (fun t => (hist t).pos) c.writeStride 1 now
  momentum : c.storeMomentum = true →
    IsRing s.momentum (fun t => (hist t).mom) c.writeStride 1 now

/-- The part of the invariant about the files, with `last` the step of the last save. -/
structure FileInv {F : Type _} (c : TrajCfg F) (hist : Nat → Snapshot F) (now last : Nat)
    (s : TrajState F) : Prop where
  last_eq : s.lastWrite = last
  le : last ≤ now
  window : now < c.writeStride * (last / c.writeStride + 1)
  files : s.files = some ((List.range c.nParticles).map (fun i =>
    (sampledSteps c.stride 0 last).map (trajRow c.timeOf hist c.storeMomentum i)))

theorem gvd_one {α} (data : List α) (f : Nat → α) (N m step lw : Nat)
    (hN : 0 < N) (hm : 0 < m) (hring : IsRing data f N 1 step) (hle : lw ≤ step)
    (hwin : step ≤ N * (lw / N + 1)) :
    getValidData data step m 1 lw = .ok ((sampledSteps m lw step).map f) := by
  have := getValidData_correct data f N 1 m step lw hN Nat.one_pos hm hring hle
    (by simpa using hwin) (by simp only [Nat.div_one]; omega)
  simpa using this

theorem zipIdx_map_range {α β} (n : Nat) (g : Nat → α) (k : α × Nat → β) :
    (((List.range n).map g).zipIdx).map k = (List.range n).map (fun i => k (g i, i)) := by
  apply List.ext_getElem
  · simp
  · intro i h1 h2; simp

theorem write_inv {F} (c : TrajCfg F) (hist : Nat → Snapshot F) (hh : GoodHist c hist)
    (hs : 0 < c.stride) (hW : 0 < c.writeStride) (hn : 0 < c.nParticles) (now last : Nat)
    (s : TrajState F) (hi : TrajInv c hist now s) (hl : s.lastWrite = last) (hle : last ≤ now)
    (hwin : now ≤ c.writeStride * (last / c.writeStride + 1))
    (hf : s.files = some ((List.range c.nParticles).map (fun i =>
      (sampledSteps c.stride 0 last).map (trajRow c.timeOf hist c.storeMomentum i)))) :
    ∃ s', s.write c now = .ok s' ∧ TrajInv c hist now s' ∧ FileInv c hist now now s' := by
  have e1 := gvd_one s.times c.timeOf c.writeStride c.stride now last hW hs hi.times hle hwin
  have e2 := gvd_one s.positions _ c.writeStride c.stride now last hW hs hi.positions hle hwin
  have e3 : ∃ sm, (if c.storeMomentum then getValidData s.momentum now c.stride 1 s.lastWrite
      else .ok []) = .ok sm ∧
      (c.storeMomentum = true → sm = (sampledSteps c.stride last now).map (fun t => (hist t).mom)) := by
    cases hm : c.storeMomentum with
    | false => exact ⟨[], by simp, by simp⟩
    | true =>
      refine ⟨_, ?_, fun _ => rfl⟩
      simp only [if_true]
      rw [hl]
      exact gvd_one s.momentum _ c.writeStride c.stride now last hW hs (hi.momentum hm) hle hwin
  obtain ⟨sm, e3, e4⟩ := e3
  have hcons : ∃ a l, (List.range c.nParticles).map (fun i =>
      (sampledSteps c.stride 0 last).map (trajRow c.timeOf hist c.storeMomentum i)) = a :: l := by
    cases hN : c.nParticles with
    | zero => omega
    | succ k => exact ⟨_, _, by rw [List.range_succ_eq_map, List.map_cons]⟩
  obtain ⟨a, l, hal⟩ := hcons
  have key : (a :: l).zipIdx.mapM (fun (x : List (List F) × Nat) => do
      let rows ← c.saveData ((sampledSteps c.stride last now).map c.timeOf)
        ((sampledSteps c.stride last now).map (fun t => (hist t).pos)) sm x.2
      return x.1 ++ rows) = (.ok ((List.range c.nParticles).map (fun i =>
      (sampledSteps c.stride 0 now).map (trajRow c.timeOf hist c.storeMomentum i))) : Except PyErr _) := by
    rw [mapM_ok _ (fun x => x.1 ++ (sampledSteps c.stride last now).map
      (trajRow c.timeOf hist c.storeMomentum x.2))]
    · rw [← hal, zipIdx_map_range]
      congr 1
      apply List.map_congr_left
      intro i _
      rw [← List.map_append, sampledSteps_append]
      · omega
      · exact hle
    · intro x hx
      have hx2 : x.2 < c.nParticles := by
        have := List.snd_lt_of_mem_zipIdx hx
        rw [← hal] at this
        simpa using this
      rw [saveData_eq c hist hh _ _ hx2 sm e4]
      rfl
  refine ⟨{ s with
    lastWrite := now
    files := some ((List.range c.nParticles).map (fun i =>
      (sampledSteps c.stride 0 now).map (trajRow c.timeOf hist c.storeMomentum i))) }, ?_, ⟨hi.times, hi.positions, hi.momentum⟩, ⟨rfl, le_refl _, ?_, rfl⟩⟩
  · unfold TrajState.write
    rw [hf, hal]
    simp only [hl] at e3 ⊢
    rw [e1, e2, e3]
    simp only [bind, Except.bind] at key ⊢
    rw [key]
    rfl
  · exact Nat.lt_mul_div_succ now hW

theorem setRow_ring {α} (data : List α) (f : Nat → α) (N now : Nat) (hN : 0 < N)
    (h : IsRing data f N 1 now) :
    ∃ d, pySetItem data (pyMod ((now + 1 : Nat) : Int) (N : Int) - 1) (f (now + 1)) = .ok d ∧
      IsRing d f N 1 (now + 1) := by
  refine ⟨data.set ((now + 1 - 1) % N) (f (now + 1)), ?_, ?_⟩
  · rw [pyMod_natCast]
    have := pySetItem_ring data (now + 1) (f (now + 1)) (by rw [h.1]; exact hN) (by omega)
    rw [h.1] at this
    exact this
  · have := IsRing.set (K := now + 1) hN Nat.one_pos (by omega) (by simpa using h)
    simpa using this

/-- `run` without the write: the three arrays receive the rows of the new step. -/
theorem run_store {F} (c : TrajCfg F) (hist : Nat → Snapshot F) (hh : GoodHist c hist)
    (hW : 0 < c.writeStride) (now : Nat) (s : TrajState F) (hi : TrajInv c hist now s) :
    ∃ s1 : TrajState F, TrajInv c hist (now + 1) s1 ∧ s1.files = s.files ∧ s1.lastWrite = s.lastWrite ∧
      s.run c (now + 1) (hist (now + 1))
        = if c.writeStride ∣ now + 1 then s1.write c (now + 1) else .ok s1 := by
  obtain ⟨t1, ht1, ht2⟩ := setRow_ring s.times c.timeOf c.writeStride now hW hi.times
  obtain ⟨p1, hp1, hp2⟩ := setRow_ring s.positions _ c.writeStride now hW hi.positions
  obtain ⟨m1, hm1, hm2⟩ : ∃ m1, (if c.storeMomentum then
        pySetItem s.momentum (pyMod ((now + 1 : Nat) : Int) (c.writeStride : Int) - 1) (hist (now + 1)).mom
      else .ok s.momentum) = (.ok m1 : Except PyErr _) ∧
      (c.storeMomentum = true → IsRing m1 (fun t => (hist t).mom) c.writeStride 1 (now + 1)) := by
    cases hm : c.storeMomentum with
    | false => exact ⟨_, rfl, by simp⟩
    | true =>
      obtain ⟨m1, h1, h2⟩ := setRow_ring s.momentum _ c.writeStride now hW (hi.momentum hm)
      exact ⟨m1, by simpa using h1, fun _ => h2⟩
  refine ⟨{ s with times := t1, positions := p1, momentum := m1 }, ⟨ht2, hp2, hm2⟩, rfl, rfl, ?_⟩
  have hmod : (pyMod ((now + 1 : Nat) : Int) (c.writeStride : Int) = 0) ↔ c.writeStride ∣ now + 1 := by
    rw [pyMod_natCast]
    constructor
    · intro h; exact Nat.dvd_of_mod_eq_zero (by omega)
    · intro h; rw [Nat.mod_eq_zero_of_dvd h]; rfl
  unfold TrajState.run
  rw [if_neg (by omega)]
  simp only [bind, Except.bind, pure, Except.pure, ht1, npAssignRows_eq _ _ (hh (now + 1)).1,
    npAssignRows_eq _ _ (hh (now + 1)).2, hp1]
  cases hm : c.storeMomentum with
  | false =>
    simp only [hm] at hm1
    simp only [Bool.false_eq_true, if_false] at hm1 ⊢
    injection hm1 with hm1
    subst hm1
    by_cases hd : c.writeStride ∣ now + 1
    · rw [if_pos hd, if_pos (hmod.2 hd)]
    · rw [if_neg hd, if_neg (fun h => hd (hmod.1 h))]
  | true =>
    simp only [hm, if_true] at hm1
    simp only [if_true, hm1]
    by_cases hd : c.writeStride ∣ now + 1
    · rw [if_pos hd, if_pos (hmod.2 hd)]
    · rw [if_neg hd, if_neg (fun h => hd (hmod.1 h))]

theorem exec_inv {F} (c : TrajCfg F) (hist : Nat → Snapshot F) (hh : GoodHist c hist)
    (hs : 0 < c.stride) (hW : 0 < c.writeStride) (hn : 0 < c.nParticles) (es : List Event) :
    ∀ (now last : Nat) (s : TrajState F), TrajInv c hist now s → FileInv c hist now last s →
    ∃ s', trajExec c hist es now s = .ok s' ∧ TrajInv c hist (now + stepsOf es) s' ∧
      FileInv c hist (now + stepsOf es) (lastSave c.writeStride now last es) s' := by
  induction es with
  | nil => intro now last s hi hf; exact ⟨s, rfl, hi, hf⟩
  | cons e es ih =>
    intro now last s hi hf
    cases e with
    | write =>
      obtain ⟨s1, h1, h2, h3⟩ := write_inv c hist hh hs hW hn now last s hi hf.last_eq hf.le
        (Nat.le_of_lt hf.window) hf.files
      obtain ⟨s2, h4, h5, h6⟩ := ih now now s1 h2 h3
      refine ⟨s2, ?_, h5, h6⟩
      simp only [trajExec, h1, bind, Except.bind, h4]
    | tick =>
      obtain ⟨s1, h1, hf1, hl1, h2⟩ := run_store c hist hh hW now s hi
      have hle : last ≤ now + 1 := Nat.le_succ_of_le hf.le
      have hwin : now + 1 ≤ c.writeStride * (last / c.writeStride + 1) := hf.window
      have hassoc : now + stepsOf (Event.tick :: es) = now + 1 + stepsOf es := by
        simp only [stepsOf]; omega
      rw [hassoc]
      by_cases hd : c.writeStride ∣ now + 1
      · rw [if_pos hd] at h2
        obtain ⟨s2, h3, h4, h5⟩ := write_inv c hist hh hs hW hn (now + 1) last s1 h1
          (hl1.trans hf.last_eq) hle hwin (hf1.trans hf.files)
        obtain ⟨s3, h6, h7, h8⟩ := ih (now + 1) (now + 1) s2 h4 h5
        refine ⟨s3, ?_, h7, ?_⟩
        · simp only [trajExec, h2, h3, bind, Except.bind, h6]
        · simpa only [lastSave, if_pos hd] using h8
      · rw [if_neg hd] at h2
        have hne : now + 1 ≠ c.writeStride * (last / c.writeStride + 1) := by
          intro he; exact hd ⟨_, he⟩
        obtain ⟨s3, h6, h7, h8⟩ := ih (now + 1) last s1 h1
          ⟨hl1.trans hf.last_eq, hle, by omega, hf1.trans hf.files⟩
        refine ⟨s3, ?_, h7, ?_⟩
        · simp only [trajExec, h2, bind, Except.bind, h6]
        · simpa only [lastSave, if_neg hd] using h8

theorem init_inv {F} (c : TrajCfg F) (hist : Nat → Snapshot F) (b : Bool)
    (gt : Nat → F) (gp gm : Nat → List (List F)) :
    TrajInv c hist 0 (TrajState.init c b gt gp gm) :=
  ⟨IsRing.zero Nat.one_pos (by simp [TrajState.init]),
   IsRing.zero Nat.one_pos (by simp [TrajState.init]),
   fun _ => IsRing.zero Nat.one_pos (by simp [TrajState.init])⟩

/-- Without files (no filename, or no particles) nothing is written and nothing can fail. -/
theorem exec_nofiles {F} (c : TrajCfg F) (hist : Nat → Snapshot F) (hh : GoodHist c hist)
    (hW : 0 < c.writeStride) (es : List Event) :
    ∀ (now : Nat) (s : TrajState F), TrajInv c hist now s → (s.files = none ∨ s.files = some []) →
    ∃ s', trajExec c hist es now s = .ok s' ∧ TrajInv c hist (now + stepsOf es) s' ∧
      s'.files = s.files ∧ s'.lastWrite = s.lastWrite := by
  induction es with
  | nil => intro now s hi hf; exact ⟨s, rfl, hi, rfl, rfl⟩
  | cons e es ih =>
    intro now s hi hf
    have hw : ∀ (s : TrajState F) k, (s.files = none ∨ s.files = some []) → s.write c k = .ok s := by
      intro s k h
      unfold TrajState.write
      rcases h with h | h <;> rw [h]
    cases e with
    | write =>
      obtain ⟨s2, h4, h5, h6, h7⟩ := ih now s hi hf
      refine ⟨s2, ?_, h5, h6, h7⟩
      simp only [trajExec, hw s now hf, bind, Except.bind, h4]
    | tick =>
      obtain ⟨s1, h1, hf1, hl1, h2⟩ := run_store c hist hh hW now s hi
      have hassoc : now + stepsOf (Event.tick :: es) = now + 1 + stepsOf es := by
        simp only [stepsOf]; omega
      rw [hw s1 _ (hf1 ▸ hf), ite_self] at h2
      obtain ⟨s3, h6, h7, h8, h9⟩ := ih (now + 1) s1 h1 (hf1 ▸ hf)
      refine ⟨s3, ?_, hassoc ▸ h7, h8.trans hf1, h9.trans hl1⟩
      simp only [trajExec, h2, bind, Except.bind, h6]

end Bdld
