import Verif.Lemmas.RingSet
import Verif.Lemmas.Except
import Verif.Props.Ring
import Verif.Model.Series

/-
C04, C05: what the delta-f and particle-distribution files contain.
-/

namespace Bdld
open Spec

/-- Specification of the row of step `t`. -/
def seriesRow {F : Type _} (timeCol : Nat → F) (vals : Nat → List F) (t : Nat) : List F :=
  timeCol t :: vals t

/-- A constructed configuration with a stride: write stride positive and a multiple of the stride. -/
theorem seriesCfg_new {F : Type _} (stride writeStride : Option Nat) (hasFile : Bool)
    (timeCol : Nat → F) (c : SeriesCfg F) (h : SeriesCfg.new stride writeStride hasFile timeCol = .ok c) :
    c.hasFile = hasFile ∧ c.timeCol = timeCol ∧
    ((c.stride = 0 ∧ c.writeStride = 0 ∧ truthyNat stride = false) ∨
     (some c.stride = stride ∧ 0 < c.stride ∧ 0 < c.writeStride ∧ c.stride ∣ c.writeStride)) := by
  unfold SeriesCfg.new at h
  rcases stride with _ | _ | k
  · simp [truthyNat] at h; subst h; simp [truthyNat]
  · simp [truthyNat] at h; subst h; simp [truthyNat]
  · rw [if_pos (by rfl)] at h
    by_cases h1 : (truthyNat writeStride && !hasFile) = true
    · rw [if_pos h1] at h; cases h
    · rw [if_neg h1] at h
      by_cases h2 : pyOrNat writeStride (pyOrNat (some (k + 1)) 0 * 100) % pyOrNat (some (k + 1)) 0 ≠ 0
      · simp only [if_pos h2] at h; cases h
      · simp only [if_neg h2] at h
        injection h with h
        subst h
        refine ⟨rfl, rfl, Or.inr ⟨rfl, by simp [pyOrNat], ?_, ?_⟩⟩
        · rcases writeStride with _ | _ | w <;> simp [pyOrNat]
        · exact Nat.dvd_of_mod_eq_zero (by simpa using h2)

/-- State during a run with stride `u` and `N` rows: the ring invariant, and everything up to the last
multiple of the write stride is in the file (if there is one). -/
private structure SInv {F : Type _} (c : SeriesCfg F) (vals : Nat → List F) (N now : Nat)
    (s : SeriesState F) : Prop where
  ring : ∃ rows, s.buf = .table rows ∧ IsRing rows (seriesRow c.timeCol vals) N c.stride now
  last : c.hasFile = true → s.lastWrite = now / c.writeStride * c.writeStride
  file : s.file = if c.hasFile then
    (sampledSteps c.stride 0 (now / c.writeStride * c.writeStride)).map (seriesRow c.timeCol vals) else []

private theorem gvd_series {α} (rows : List α) (f : Nat → α) (N u now : Nat) (hN : 0 < N) (hu : 0 < u)
    (hr : IsRing rows f N u now) (lw : Nat) (hle : lw ≤ now)
    (hwin : now / u ≤ N * (lw / u / N + 1))
    (hnew : lw = now ∨ lw / u < now / u ∨ ¬ N ∣ now / u) :
    getValidData rows now u u lw = .ok ((sampledSteps u lw now).map f) := by
  have := getValidData_correct rows f N u 1 now lw hN hu Nat.one_pos hr hle hwin hnew
  simpa using this

private theorem step_inv {F : Type _} (c : SeriesCfg F) (vals : Nat → List F) (N now : Nat)
    (hu : 0 < c.stride) (hN : 0 < N) (hW : c.writeStride = N * c.stride) (s : SeriesState F)
    (h : SInv c vals N now s) :
    ∃ s', s.run c (now + 1) (vals (now + 1)) = .ok s' ∧ SInv c vals N (now + 1) s' := by
  obtain ⟨rows, hb, hr⟩ := h.ring
  have hWpos : 0 < c.writeStride := by rw [hW]; exact Nat.mul_pos hN hu
  -- first half: the row
  have h1 : ∃ rows', s.store c (now + 1) (vals (now + 1)) = .ok { s with buf := .table rows' } ∧
      IsRing rows' (seriesRow c.timeCol vals) N c.stride (now + 1) := by
    by_cases hd : c.stride ∣ now + 1
    · obtain ⟨K, hK⟩ := hd
      have hK0 : 0 < K := by
        rcases Nat.eq_zero_or_pos K with rfl | h
        · omega
        · exact h
      refine ⟨rows.set ((K - 1) % N) (seriesRow c.timeCol vals (c.stride * K)), ?_, ?_⟩
      · unfold SeriesState.store
        rw [if_pos ⟨by omega, by rw [pyMod_natCast, hK, Nat.mul_mod_right]; rfl⟩, if_neg (by omega)]
        simp only [hb]
        have e : pyDiv (pyMod ((now + 1 : Nat) : Int) (c.writeStride : Int)) (c.stride : Int)
            = ((K % N : Nat) : Int) := by
          rw [pyMod_natCast, pyDiv_natCast, hW, mod_mul_div, hK, Nat.mul_div_cancel_left _ hu]
        rw [e]
        have := pySetItem_ring rows K (seriesRow c.timeCol vals (c.stride * K)) (by rw [hr.1]; exact hN) hK0
        rw [hr.1] at this
        rw [← hK] at this ⊢
        unfold seriesRow at this ⊢
        rw [this]; rfl
      · rw [hK]
        apply IsRing.set hN hu hK0
        rw [← hK]; simpa using hr
    · refine ⟨rows, ?_, IsRing.skip hd hr⟩
      unfold SeriesState.store
      rw [if_neg]
      · rw [← hb]
      · rintro ⟨_, h0⟩
        rw [pyMod_natCast] at h0
        exact hd (Nat.dvd_of_mod_eq_zero (by omega))
  obtain ⟨rows', e1, hr'⟩ := h1
  by_cases hWd : c.writeStride ∣ now + 1
  · obtain ⟨q, hq⟩ := hWd
    have hq0 : 0 < q := by
      rcases Nat.eq_zero_or_pos q with rfl | h
      · omega
      · exact h
    have hdivnew : (now + 1) / c.writeStride = q := by rw [hq, Nat.mul_div_cancel_left _ hWpos]
    have hdivold : now / c.writeStride = q - 1 := by
      apply Nat.div_eq_of_lt_le
      · have : (q - 1) * c.writeStride + c.writeStride = c.writeStride * q := by
          rw [← Nat.succ_mul, Nat.mul_comm]; congr 1; omega
        omega
      · have : (q - 1 + 1) = q := by omega
        rw [this, Nat.mul_comm]; omega
    have hrun : ∀ s2, SeriesState.write c { s with buf := .table rows' } (now + 1) = .ok s2 →
        s.run c (now + 1) (vals (now + 1)) = .ok s2 := by
      intro s2 h2
      unfold SeriesState.run
      rw [e1]
      simp only [bind, Except.bind]
      rw [if_pos ⟨by omega, by rw [pyMod_natCast, hq, Nat.mul_mod_right]; rfl⟩]
      exact h2
    cases hf : c.hasFile with
    | false =>
      refine ⟨{ s with buf := .table rows' }, hrun _ (by simp [SeriesState.write, hf]), ⟨rows', rfl, hr'⟩,
        by simp [hf], by have := h.file; simp [hf] at this ⊢; exact this⟩
    | true =>
      have hlast : s.lastWrite = (q - 1) * c.writeStride := by rw [h.last hf, hdivold]
      have hlw1 : s.lastWrite / c.stride = (q - 1) * N := by
        rw [hlast, hW, ← Nat.mul_assoc, Nat.mul_div_cancel _ hu]
      have hnow1 : (now + 1) / c.stride = N * q := by
        rw [hq, hW, Nat.mul_right_comm, Nat.mul_div_cancel _ hu]
      have hle : s.lastWrite ≤ now + 1 := by
        rw [hlast, hq, Nat.mul_comm]; exact Nat.mul_le_mul_left _ (by omega)
      have hg := gvd_series rows' _ N c.stride (now + 1) hN hu hr' s.lastWrite hle
        (by rw [hlw1, hnow1, Nat.mul_div_cancel _ hN]; exact Nat.mul_le_mul_left _ (by omega))
        (Or.inr (Or.inl (by
          rw [hlw1, hnow1, Nat.mul_comm]; exact Nat.mul_lt_mul_of_pos_left (by omega) hN)))
      refine ⟨_, hrun _ (by
        simp only [SeriesState.write, hf, if_true]
        rw [hg]; rfl), ⟨rows', rfl, hr'⟩, ?_, ?_⟩
      · intro _; show now + 1 = _; rw [hdivnew, hq, Nat.mul_comm]
      · show s.file ++ _ = _
        have := h.file
        rw [hf, if_pos rfl, hdivold] at this
        rw [this, hf, if_pos rfl, hdivnew, hlast, Nat.mul_comm q, ← hq, ← List.map_append,
          sampledSteps_append _ (Nat.zero_le _) (by rw [← hlast]; exact hle)]
  · have hdiv : (now + 1) / c.writeStride = now / c.writeStride := by
      rw [Nat.succ_div, if_neg hWd]; rfl
    refine ⟨{ s with buf := .table rows' }, ?_, ⟨rows', rfl, hr'⟩, ?_, ?_⟩
    · unfold SeriesState.run
      rw [e1]
      simp only [bind, Except.bind]
      rw [if_neg]
      · rfl
      · rintro ⟨_, h0⟩
        rw [pyMod_natCast] at h0
        exact hWd (Nat.dvd_of_mod_eq_zero (by omega))
    · rw [hdiv]; exact h.last
    · rw [hdiv]; exact h.file

private theorem steps_inv {F : Type _} (c : SeriesCfg F) (vals : Nat → List F) (N : Nat)
    (hu : 0 < c.stride) (hN : 0 < N) (hW : c.writeStride = N * c.stride) (garbage : Nat → List F) :
    ∀ n, ∃ s, SeriesState.steps c vals n (SeriesState.init c garbage) = .ok s ∧ SInv c vals N n s := by
  have hWpos : 0 < c.writeStride := by rw [hW]; exact Nat.mul_pos hN hu
  intro n
  induction n with
  | zero =>
    refine ⟨_, rfl, ?_⟩
    refine ⟨⟨(List.range (c.writeStride / c.stride)).map garbage, ?_, IsRing.zero hu ?_⟩, ?_, ?_⟩
    · simp only [SeriesState.init]; rw [if_neg (by omega)]
    · simp [hW, Nat.mul_div_cancel _ hu]
    · intro _; simp [SeriesState.init]
    · simp [SeriesState.init, sampledSteps_self]
  | succ n ih =>
    obtain ⟨s, h1, h2⟩ := ih
    obtain ⟨s', h3, h4⟩ := step_inv c vals N n hu hN hW s h2
    exact ⟨s', by simp only [SeriesState.steps, h1, bind, Except.bind, h3], h4⟩

/-- After `n` steps the file has the sampled steps up to the last multiple of the write stride. -/
theorem series_steps_file {F : Type _} (c : SeriesCfg F) (vals : Nat → List F) (garbage : Nat → List F) (n : Nat)
    (hu : 0 < c.stride) (hW : 0 < c.writeStride) (hdvd : c.stride ∣ c.writeStride) (hf : c.hasFile = true) :
    ∃ s, SeriesState.steps c vals n (SeriesState.init c garbage) = .ok s ∧
      s.file = (sampledSteps c.stride 0 (n / c.writeStride * c.writeStride)).map (seriesRow c.timeCol vals) := by
  obtain ⟨N, hN⟩ := hdvd
  have hWN : c.writeStride = N * c.stride := by rw [hN, Nat.mul_comm]
  have hN0 : 0 < N := by
    rcases Nat.eq_zero_or_pos N with rfl | h
    · omega
    · exact h
  obtain ⟨s, h1, h2⟩ := steps_inv c vals N hu hN0 hWN garbage n
  have := h2.file
  rw [if_pos hf] at this
  exact ⟨s, h1, this⟩

/-- **C04 (partial).** Full claim: after a complete simulation of `n` steps with stride and filename the
file holds exactly one row for every multiple of `stride` in `1..n`. Proved for every `n` except those with
`0 < n % write_stride < stride`; there the claim is false (`series_file_false`), and
`series_file_boundary` says exactly what is written instead. -/
theorem series_file_partial {F : Type _} (c : SeriesCfg F) (vals : Nat → List F) (valsEnd : List F)
    (garbage : Nat → List F) (n : Nat)
    (hu : 0 < c.stride) (hW : 0 < c.writeStride) (hdvd : c.stride ∣ c.writeStride) (hf : c.hasFile = true)
    (hn : n % c.writeStride = 0 ∨ c.stride ≤ n % c.writeStride) :
    ∃ s, SeriesState.simulate c vals valsEnd n (SeriesState.init c garbage) = .ok s ∧
      s.file = (sampledSteps c.stride 0 n).map (seriesRow c.timeCol vals) := by
  obtain ⟨N, hN⟩ := hdvd
  have hWN : c.writeStride = N * c.stride := by rw [hN, Nat.mul_comm]
  have hN0 : 0 < N := by
    rcases Nat.eq_zero_or_pos N with rfl | h
    · omega
    · exact h
  obtain ⟨s, h1, h2⟩ := steps_inv c vals N hu hN0 hWN garbage n
  obtain ⟨rows, hb, hr⟩ := h2.ring
  have hlast := h2.last hf
  have hdm := Nat.div_add_mod n c.writeStride
  have hml := Nat.mod_lt n hW
  have hle : s.lastWrite ≤ n := by rw [hlast]; exact Nat.div_mul_le_self _ _
  have hlw1 : s.lastWrite / c.stride = n / c.writeStride * N := by
    rw [hlast, hWN, ← Nat.mul_assoc, Nat.mul_div_cancel _ hu]
  have hndiv : n / c.stride = n / c.writeStride * N + n % c.writeStride / c.stride := by
    conv_lhs => rw [← hdm]
    rw [show c.writeStride * (n / c.writeStride) = c.stride * (N * (n / c.writeStride)) by
      rw [hN]; ring, Nat.mul_add_div hu]
    ring
  have hmodN : n % c.writeStride / c.stride < N := by
    rw [Nat.div_lt_iff_lt_mul hu, ← hWN]; exact hml
  have hg : getValidData rows n c.stride c.stride s.lastWrite
      = .ok ((sampledSteps c.stride s.lastWrite n).map (seriesRow c.timeCol vals)) := by
    apply gvd_series rows _ N c.stride n hN0 hu hr s.lastWrite hle
    · rw [hlw1, hndiv, Nat.mul_div_cancel _ hN0, Nat.mul_add, Nat.mul_comm N]; omega
    · rcases hn with h | h
      · left; rw [hlast]; rw [h] at hdm; rw [Nat.mul_comm]; omega
      · right; left
        rw [hlw1, hndiv]
        have : 1 ≤ n % c.writeStride / c.stride := by rw [Nat.le_div_iff_mul_le hu]; omega
        omega
  refine ⟨{ s with lastWrite := n, file := s.file ++ (sampledSteps c.stride s.lastWrite n).map (seriesRow c.timeCol vals) },
    ?_, ?_⟩
  · simp only [SeriesState.simulate, h1, bind, Except.bind, SeriesState.finalRun]
    rw [if_neg (by omega)]
    simp only [SeriesState.write, hf, if_true, hb]
    rw [hg]; rfl
  · show s.file ++ _ = _
    have hfile := h2.file
    rw [hf, if_pos rfl, ← hlast] at hfile
    rw [hfile, ← List.map_append, sampledSteps_append _ (Nat.zero_le _) hle]

/-- Non-vacuity: stride 2, write stride 4, 7 steps. -/
example : SeriesCfg.new (some 2) (some 4) true (fun t => t) = .ok ⟨2, 4, true, (fun t => t)⟩ ∧
    ((SeriesState.simulate ⟨2, 4, true, (fun t => t)⟩ (fun t => [t + 100]) [0] 7
      (SeriesState.init ⟨2, 4, true, (fun t => t)⟩ (fun _ => [999]))).map (·.file)
      = .ok [[2, 102], [4, 104], [6, 106]]) := by
  refine ⟨rfl, by decide +kernel⟩

private theorem steps_short {F : Type _} (c : SeriesCfg F) (vals : Nat → List F)
    (_hu : 0 < c.stride) (hdvd : c.stride ∣ c.writeStride) (hW : 0 < c.writeStride) (s : SeriesState F) :
    ∀ n, n < c.stride → SeriesState.steps c vals n s = .ok s := by
  intro n
  induction n with
  | zero => intro _; rfl
  | succ n ih =>
    intro hn
    have hle := Nat.le_of_dvd hW hdvd
    simp only [SeriesState.steps, ih (by omega), SeriesState.run, SeriesState.store, ok_bind]
    rw [if_neg, ok_bind, if_neg]
    · rfl
    · rintro ⟨_, h0⟩
      rw [pyMod_natCast, Nat.mod_eq_of_lt (by omega)] at h0; omega
    · rintro ⟨_, h0⟩
      rw [pyMod_natCast, Nat.mod_eq_of_lt hn] at h0; omega

/-- What the code does in the situations excluded by C04, `0 < n % write_stride < stride`: the final
write appends the *whole* array once more, i.e. all rows of the last complete block are duplicated, or, if
the simulation is shorter than one stride, `write_stride / stride` rows of uninitialised memory. -/
theorem series_file_boundary {F : Type _} (c : SeriesCfg F) (vals : Nat → List F) (valsEnd : List F)
    (garbage : Nat → List F) (n : Nat)
    (hu : 0 < c.stride) (hW : 0 < c.writeStride) (hdvd : c.stride ∣ c.writeStride) (hf : c.hasFile = true)
    (hn1 : 0 < n % c.writeStride) (hn2 : n % c.writeStride < c.stride) :
    ∃ s, SeriesState.simulate c vals valsEnd n (SeriesState.init c garbage) = .ok s ∧
      s.file = (sampledSteps c.stride 0 n).map (seriesRow c.timeCol vals) ++
        if n < c.stride then (List.range (c.writeStride / c.stride)).map garbage
        else (sampledSteps c.stride (n / c.writeStride * c.writeStride - c.writeStride)
          (n / c.writeStride * c.writeStride)).map (seriesRow c.timeCol vals) := by
  have hdvd' := hdvd
  obtain ⟨N, hN⟩ := hdvd
  have hWN : c.writeStride = N * c.stride := by rw [hN, Nat.mul_comm]
  have hN0 : 0 < N := by
    rcases Nat.eq_zero_or_pos N with rfl | h
    · omega
    · exact h
  obtain ⟨s, h1, h2⟩ := steps_inv c vals N hu hN0 hWN garbage n
  obtain ⟨rows, hb, hr⟩ := h2.ring
  have hlast := h2.last hf
  have hdm := Nat.div_add_mod n c.writeStride
  have hlw1 : s.lastWrite / c.stride = n / c.writeStride * N := by
    rw [hlast, hWN, ← Nat.mul_assoc, Nat.mul_div_cancel _ hu]
  have hndiv : n / c.stride = n / c.writeStride * N := by
    conv_lhs => rw [← hdm]
    rw [show c.writeStride * (n / c.writeStride) = c.stride * (N * (n / c.writeStride)) by
      rw [hN]; ring, Nat.mul_add_div hu, Nat.div_eq_of_lt hn2]
    ring
  have hlt : s.lastWrite < n := by rw [hlast, Nat.mul_comm]; omega
  obtain ⟨hg, hnil⟩ := getValidData_stale rows c.stride n s.lastWrite (by rw [hr.1]; exact hN0) hu hlt
    (by rw [hlw1, hndiv]) (by rw [hr.1, hndiv]; exact Nat.dvd_mul_left _ _)
  have hfile := h2.file
  rw [hf, if_pos rfl, ← hlast] at hfile
  have hall : sampledSteps c.stride 0 s.lastWrite = sampledSteps c.stride 0 n := by
    rw [← sampledSteps_append c.stride (Nat.zero_le _) (Nat.le_of_lt hlt), hnil, List.append_nil]
  refine ⟨{ s with lastWrite := n, file := s.file ++ rows }, ?_, ?_⟩
  · simp only [SeriesState.simulate, h1, bind, Except.bind, SeriesState.finalRun]
    rw [if_neg (by omega)]
    simp only [SeriesState.write, hf, if_true, hb]
    rw [hg]; rfl
  · show s.file ++ rows = _
    rw [hfile, hall]
    congr 1
    by_cases hns : n < c.stride
    · rw [if_pos hns]
      have := steps_short c vals hu hdvd' hW (SeriesState.init c garbage) n hns
      rw [this] at h1
      injection h1 with h1
      rw [← h1] at hb
      simp only [SeriesState.init] at hb
      rw [if_neg (by omega)] at hb
      injection hb with hb
      exact hb.symm
    · rw [if_neg hns]
      have hq : 1 ≤ n / c.writeStride := by
        rcases Nat.eq_zero_or_pos (n / c.writeStride) with h | h
        · rw [h] at hdm; omega
        · exact h
      obtain ⟨q, hq'⟩ : ∃ q, n / c.writeStride = q + 1 := ⟨n / c.writeStride - 1, by omega⟩
      rw [hq'] at hdm ⊢
      have hsub : (q + 1) * c.writeStride - c.writeStride = q * c.writeStride := by
        rw [Nat.succ_mul]; omega
      rw [hsub]
      have hle : q * c.writeStride ≤ (q + 1) * c.writeStride := Nat.mul_le_mul_right _ (by omega)
      have hdiv1 : (q + 1) * c.writeStride / c.stride = (q + 1) * N := by
        rw [hWN, ← Nat.mul_assoc, Nat.mul_div_cancel _ hu]
      have hdiv0 : q * c.writeStride / c.stride = q * N := by
        rw [hWN, ← Nat.mul_assoc, Nat.mul_div_cancel _ hu]
      have hring : IsRing rows (seriesRow c.timeCol vals) N c.stride ((q + 1) * c.writeStride) := by
        refine ⟨hr.1, fun k k1 k2 k3 => hr.2 k k1 (by rw [Nat.mul_comm] at hdm; omega) ?_⟩
        have : (q + 1) * N < k + N := by
          apply Nat.lt_of_mul_lt_mul_left (a := c.stride)
          calc c.stride * ((q + 1) * N) = (q + 1) * c.writeStride := by rw [hWN]; ring
            _ < _ := k3
        calc n < (q + 1) * c.writeStride + c.stride := by rw [Nat.mul_comm] at hdm; omega
          _ = c.stride * ((q + 1) * N + 1) := by rw [hWN]; ring
          _ ≤ c.stride * (k + N) := Nat.mul_le_mul_left _ this
      have hg2 := gvd_series rows _ N c.stride _ hN0 hu hring (q * c.writeStride) hle
        (by rw [hdiv1, hdiv0, Nat.mul_div_cancel _ hN0, Nat.mul_comm])
        (Or.inr (Or.inl (by rw [hdiv1, hdiv0]; exact Nat.mul_lt_mul_of_pos_right (by omega) hN0)))
      have hpos : 0 < rows.length := by rw [hr.1]; exact hN0
      have hg3 := getValidData_nat rows N c.stride 1 ((q + 1) * c.writeStride) (q * c.writeStride)
        hr.1 hN0 hu Nat.one_pos (by rw [Nat.succ_mul]; omega)
      rw [Nat.one_mul, hg2, hdiv1, hdiv0] at hg3
      injection hg3 with hg3
      rw [Nat.mul_mod_left, Nat.mul_mod_left, if_pos rfl,
        show min (0 + (1 - 1) - q * N % 1) N = 0 by omega, sliceIdx_full, ← hr.1,
        filterMap_range_get] at hg3
      exact hg3.symm

/-- Counterexample to the full claim of C04: stride 2, write stride 4, 5 steps. The rows of steps 2 and
4 appear twice. -/
theorem series_file_false :
    ¬ ∀ (c : SeriesCfg Nat) (vals : Nat → List Nat) (valsEnd : List Nat) (garbage : Nat → List Nat) (n : Nat),
      0 < c.stride → 0 < c.writeStride → c.stride ∣ c.writeStride → c.hasFile = true →
      (SeriesState.simulate c vals valsEnd n (SeriesState.init c garbage)).map (·.file)
        = .ok ((sampledSteps c.stride 0 n).map (seriesRow c.timeCol vals)) := by
  intro h
  have := h ⟨2, 4, true, fun t => t⟩ (fun t => [t + 100]) [0] (fun _ => [999]) 5
    (by decide) (by decide) ⟨2, rfl⟩ rfl
  revert this
  decide +kernel

/-- Without a filename a run with stride never raises and writes nothing. -/
theorem series_no_file {F : Type _} (c : SeriesCfg F) (vals : Nat → List F) (valsEnd : List F)
    (garbage : Nat → List F) (n : Nat)
    (hu : 0 < c.stride) (hW : 0 < c.writeStride) (hdvd : c.stride ∣ c.writeStride) (hf : c.hasFile = false) :
    ∃ s, SeriesState.simulate c vals valsEnd n (SeriesState.init c garbage) = .ok s ∧ s.file = [] := by
  obtain ⟨N, hN⟩ := hdvd
  have hN0 : 0 < N := by
    rcases Nat.eq_zero_or_pos N with rfl | h
    · omega
    · exact h
  obtain ⟨s, h1, h2⟩ := steps_inv c vals N hu hN0 (by rw [hN, Nat.mul_comm]) garbage n
  refine ⟨s, ?_, by have := h2.file; simpa [hf] using this⟩
  simp only [SeriesState.simulate, h1, bind, Except.bind, SeriesState.finalRun]
  rw [if_neg (by omega)]
  simp [SeriesState.write, hf]

/-- **C05.** Without a stride nothing happens during the run, and the final run appends exactly one row
with the time and the values at the end (nothing if there is no filename). No call raises. -/
theorem series_no_stride {F : Type _} (c : SeriesCfg F) (vals : Nat → List F) (valsEnd : List F)
    (garbage : Nat → List F) (n : Nat) (hu : c.stride = 0) (hW : c.writeStride = 0) :
    SeriesState.steps c vals n (SeriesState.init c garbage) = .ok (SeriesState.init c garbage) ∧
    ∃ s, SeriesState.simulate c vals valsEnd n (SeriesState.init c garbage) = .ok s ∧
      s.file = if c.hasFile then [c.timeCol n :: valsEnd] else [] := by
  have h : ∀ n, SeriesState.steps c vals n (SeriesState.init c garbage) = .ok (SeriesState.init c garbage) := by
    intro n
    induction n with
    | zero => rfl
    | succ n ih =>
      simp only [SeriesState.steps, ih, SeriesState.run, SeriesState.store, ok_bind]
      rw [if_neg (by omega), ok_bind, if_neg (by omega)]
      rfl
  refine ⟨h n, ?_⟩
  cases hf : c.hasFile with
  | true =>
    refine ⟨{ buf := .single (c.timeCol n :: valsEnd), lastWrite := 0, file := [c.timeCol n :: valsEnd] }, ?_, rfl⟩
    rw [SeriesState.simulate, h n, ok_bind]
    simp [SeriesState.finalRun, hu, SeriesState.write, hf, SeriesState.init]
  | false =>
    refine ⟨{ buf := .single (c.timeCol n :: valsEnd), lastWrite := 0, file := [] }, ?_, rfl⟩
    rw [SeriesState.simulate, h n, ok_bind]
    simp [SeriesState.finalRun, hu, SeriesState.write, hf, SeriesState.init]

example : SeriesCfg.new none (some 4) true (fun t => t) = .ok ⟨0, 0, true, (fun t => t)⟩ := rfl

end Bdld
