import Verif.Spec.OutputSettings
import Verif.Props.MainGridFiles

/-
C112: contradicting output settings are rejected before the simulation starts.
-/

set_option linter.unusedSectionVars false

namespace Bdld
open Spec

variable {R : Type}

/-! ### Constructors -/

/-- **C112.** The constructors of delta F and particle distribution raise `ValueError` exactly if there is a stride, and a write stride
without filename or a write stride that is no multiple of the stride. -/
theorem seriesCfg_rejects {F : Type} (stride ws : Option Nat) (f : Bool) (t : Nat → F) :
    (SeriesCfg.new stride ws f t = .error .valueError ↔
      ∃ s, stride = some s ∧ 0 < s ∧ ∃ w, ws = some w ∧ 0 < w ∧ (f = false ∨ ¬ s ∣ w)) ∧
    ((∃ c, SeriesCfg.new stride ws f t = .ok c) ∨ SeriesCfg.new stride ws f t = .error .valueError) := by
  unfold SeriesCfg.new
  rcases stride with _ | _ | s
  · simp [truthyNat]
  · simp [truthyNat]
  · rcases ws with _ | _ | w
    · simp [truthyNat, pyOrNat]
    · simp [truthyNat, pyOrNat]
    · cases f
      · simp [truthyNat]
      · by_cases h : (w + 1) % (s + 1) = 0
        · simp [truthyNat, pyOrNat, h, Nat.dvd_iff_mod_eq_zero]
        · simp [truthyNat, pyOrNat, h, Nat.dvd_iff_mod_eq_zero]

example : SeriesCfg.new (some 3) (some 5) true (fun n : Nat => (n : Int)) = .error .valueError :=
  (seriesCfg_rejects _ _ _ _).1.2 ⟨3, rfl, by decide, 5, rfl, by decide, Or.inr (by decide)⟩

/-- **C112, negation.** The documentation of both constructors says "ValueError: if a write_stride but no filename is passed". This is
not true without a stride: the write stride is ignored. -/
theorem seriesCfg_documented_false : ¬ ∀ (stride ws : Option Nat) (t : Nat → Int), truthyNat ws = true →
    SeriesCfg.new stride ws false t = .error .valueError := by
  intro h
  have := h none (some 5) (fun n => n) rfl
  simp [SeriesCfg.new, truthyNat] at this

/-- **C112.** The checks of the FES. -/
theorem checkOutput_rejects (b : Bool) (stride : Option Nat) (filename : Option String) :
    (checkOutput b stride filename = .error .valueError ↔ b = true ∧ (truthyNat stride = false ∨ truthyStr filename = false)) ∧
    (checkOutput b stride filename = .ok () ∨ checkOutput b stride filename = .error .valueError) := by
  rw [checkOutput]
  cases b <;> cases truthyNat stride <;> cases truthyStr filename <;> simp

/-- **C112.** The constructor of the histogram: dimensions have to match, and a write stride needs a filename. -/
theorem histCfg_rejects {F : Type} [Field F] [LinearOrder F] (c : TrajCfg F) (d : Nat) (nBins : List Nat) (ranges : List (F × F))
    (stride : Option Nat) (reset : Option (List Nat)) (f : Bool) (ws : Option Nat) (h : Histogram F)
    (hh : Histogram.new nBins ranges = .ok h) :
    (HistCfg.new c d nBins ranges stride reset f ws = .error .valueError ↔
      d ≠ nBins.length ∨ d ≠ ranges.length ∨ truthyNat ws = true ∧ f = false) ∧
    ((∃ b, HistCfg.new c d nBins ranges stride reset f ws = .ok b) ∨
      HistCfg.new c d nBins ranges stride reset f ws = .error .valueError) := by
  have key : HistCfg.new c d nBins ranges stride reset f ws =
      if d ≠ nBins.length ∨ d ≠ ranges.length ∨ truthyNat ws = true ∧ f = false then .error .valueError
      else .ok (⟨pyOrNat stride 1, reset.getD [], c.writeStride⟩, h) := by
    unfold HistCfg.new
    by_cases h1 : d ≠ nBins.length
    · rw [if_pos h1, if_pos (Or.inl h1)]
      rfl
    · rw [if_neg h1]
      by_cases h2 : d ≠ ranges.length
      · simp only [if_pos h2]
        rw [if_pos (Or.inr (Or.inl h2))]
        rfl
      · simp only [if_neg h2, hh]
        by_cases h3 : truthyNat ws = true ∧ f = false
        · rw [if_pos (Or.inr (Or.inr h3))]
          simp only [h3.1, h3.2]
          rfl
        · rw [if_neg (by tauto)]
          have : (truthyNat ws && !f) = false := by
            revert h3
            cases truthyNat ws <;> cases f <;> simp
          simp only [this]
          rfl
  rw [key]
  split <;> simp [*]

/-! ### Options -/

theorem strideItem {o : Dict (OptVal ℝ)} {key : String} (hv : NoneOr (IsInt (0 < ·)) (o.get? key)) :
    ∃ v s, o.getItem key = .ok v ∧ v.asOptStride = .ok s ∧ s.getD 0 = natOption o key 0 ∧
      (truthyNat s = true ↔ 0 < natOption o key 0) := by
  rcases hv with hv | ⟨i, hv, hi⟩
  · exact ⟨_, none, by rw [Dict.getItem, hv], rfl, by simp [natOption, hv], by simp [natOption, hv, truthyNat]⟩
  · exact ⟨_, some i.toNat, by rw [Dict.getItem, hv], rfl, by simp [natOption, hv], by
      simp only [natOption, hv]
      cases i.toNat <;> simp [truthyNat]⟩

theorem stringItem {o : Dict (OptVal ℝ)} {key : String} (hv : NoneOr (IsStr anything) (o.get? key)) :
    ∃ v s, o.getItem key = .ok v ∧ v.asOptStr = .ok s ∧ (truthyStr s = true ↔ strOption o key ≠ "") := by
  rcases hv with hv | ⟨x, hv, _⟩
  · exact ⟨_, none, by rw [Dict.getItem, hv], rfl, by simp [strOption, hv, truthyStr]⟩
  · exact ⟨_, some x, by rw [Dict.getItem, hv], rfl, by simp [strOption, hv, truthyStr]⟩

theorem hasFilename_iff (o : Dict (OptVal ℝ)) : hasFilename o = true ↔ strOption o "filename" ≠ "" := by
  unfold hasFilename strOption
  split <;> simp

/-- **C112.** `[particle-distribution]` with proper states is rejected with `ValueError` exactly if its settings contradict each
other. -/
theorem setupDistribution_rejects (w : World R) (o : Dict (OptVal ℝ)) (hv : ValidOutput o) (states : List (List (ℝ × ℝ)))
    (hs : stateRanges o = .ok states) :
    (BadSeriesOutput o → setupDistribution w o = .error .valueError) ∧ (¬ BadSeriesOutput o → ∃ b, setupDistribution w o = .ok b) := by
  obtain ⟨v1, s, a1, a2, a3, a4⟩ := strideItem hv.stride
  obtain ⟨v2, f, b1, b2, b3⟩ := stringItem hv.filename
  obtain ⟨v3, ws, c1, c2, c3, c4⟩ := strideItem hv.writeStride
  rw [← hasFilename_iff] at b3
  have hiff := seriesCfg_rejects s ws (truthyStr f) (fun n : Nat => (n : ℝ))
  have hbad : BadSeriesOutput o ↔ SeriesCfg.new s ws (truthyStr f) (fun n : Nat => (n : ℝ)) = .error .valueError := by
    rw [hiff.1]
    unfold BadSeriesOutput
    rw [← a3, ← c3, Bool.eq_iff_iff.2 b3]
    rcases s with _ | s <;> rcases ws with _ | ws <;> simp
  simp only [setupDistribution, hs, a1, a2, b1, b2, c1, c2, ok_bind]
  refine ⟨fun h => ?_, fun h => ?_⟩
  · rw [hbad.1 h]
    rfl
  · obtain ⟨c, hc⟩ := hiff.2.resolve_right fun h' => h (hbad.2 h')
    rw [hc]
    exact ⟨_, rfl⟩

/-- **C112.** The same for `[delta-f]`. -/
theorem setupDeltaF_rejects (w : World R) (o : Dict (OptVal ℝ)) (hv : ValidOutput o) (kt dt : ℝ) (y : Histogram ℝ)
    (states : List (List (ℝ × ℝ))) (hs : stateRanges o = .ok states) (masks : List (List Bool)) (hm : setupDeltaF y states = .ok masks) :
    (BadSeriesOutput o → setupDeltaFAction w o kt dt y = .error .valueError) ∧
      (¬ BadSeriesOutput o → ∃ b, setupDeltaFAction w o kt dt y = .ok b) := by
  obtain ⟨v1, s, a1, a2, a3, a4⟩ := strideItem hv.stride
  obtain ⟨v2, f, b1, b2, b3⟩ := stringItem hv.filename
  obtain ⟨v3, ws, c1, c2, c3, c4⟩ := strideItem hv.writeStride
  rw [← hasFilename_iff] at b3
  have hiff := seriesCfg_rejects s ws (truthyStr f) (fun n : Nat => (n : ℝ) * dt)
  have hbad : BadSeriesOutput o ↔ SeriesCfg.new s ws (truthyStr f) (fun n : Nat => (n : ℝ) * dt) = .error .valueError := by
    rw [hiff.1]
    unfold BadSeriesOutput
    rw [← a3, ← c3, Bool.eq_iff_iff.2 b3]
    rcases s with _ | s <;> rcases ws with _ | ws <;> simp
  simp only [setupDeltaFAction, hs, hm, a1, a2, b1, b2, c1, c2, ok_bind]
  refine ⟨fun h => ?_, fun h => ?_⟩
  · rw [hbad.1 h]
    rfl
  · obtain ⟨c, hc⟩ := hiff.2.resolve_right fun h' => h (hbad.2 h')
    rw [hc]
    exact ⟨_, rfl⟩

/-- **C112.** `[histogram]` with contradicting settings is never set up. -/
theorem setupHistogram_rejects {d : Nat} (o : Dict (OptVal ℝ)) (hv : ValidOutput o) (t : TrajCfg ℝ) (hb : BadHistogramOutput o)
    (b : HistCfg × GridOut × Histogram ℝ) : setupHistogram d o t ≠ .ok b := by
  intro h
  simp only [setupHistogram] at h
  obtain ⟨⟨ranges, nBins⟩, _, h⟩ := bind_ok h
  obtain ⟨_, _, h⟩ := bind_ok h
  obtain ⟨stride, _, h⟩ := bind_ok h
  obtain ⟨_, _, h⟩ := bind_ok h
  obtain ⟨reset, _, h⟩ := bind_ok h
  obtain ⟨v2, b1, h⟩ := bind_ok h
  obtain ⟨f, b2, h⟩ := bind_ok h
  obtain ⟨v3, c1, h⟩ := bind_ok h
  obtain ⟨ws, c2, h⟩ := bind_ok h
  obtain ⟨⟨hc, h0⟩, hh, h⟩ := bind_ok h
  have e2 := filenameOption o v2 f b1 b2
  obtain ⟨v, s, g1, g2, g3, g4⟩ := strideItem hv.writeStride
  rw [c1] at g1
  cases g1
  rw [c2] at g2
  cases g2
  have h1 := g4.2 hb.1
  rw [hb.2] at e2
  unfold HistCfg.new at hh
  simp only [pure_eq_ok] at hh
  split at hh
  · cases hh
  split at hh
  · cases hh
  obtain ⟨y, _, hh⟩ := bind_ok hh
  rw [h1, e2] at hh
  cases hh

/-- **C112.** `[fes]` with contradicting settings is never set up. -/
theorem setupFes_rejects {d : Nat} (w : World R) (o : Dict (OptVal ℝ)) (hv : ValidFes o) (ld : LdCfg ℝ d) (y : Histogram ℝ)
    (hb : BadFesOutput o) (b : FesCfg × Nd (WithTop ℝ)) : setupFes w o ld y ≠ .ok b := by
  intro h
  have hp := setupFes_parts w o ld y b h
  obtain ⟨v1, s, a1, a2, a3, a4⟩ := strideItem hv.stride
  obtain ⟨v2, f, b1, b2, b3⟩ := stringItem hv.filename
  obtain ⟨v3, ws, c1, c2, c3, c4⟩ := strideItem hv.writeStride
  obtain ⟨v4, pf, d1, d2, d3⟩ := stringItem hv.plotFilename
  rw [← hasFilename_iff] at b3
  have e1 := hp.stride
  rw [a1, ok_bind, a2] at e1
  have e2 := hp.filename
  rw [b1, ok_bind, b2] at e2
  have e3 := hp.writeStride
  rw [c1, ok_bind, c2] at e3
  have e4 := hp.plotFilename
  rw [d1, ok_bind, d2] at e4
  cases e1
  cases e2
  cases e3
  cases e4
  have e5 : b.1.plot.stride.getD 0 = intOption o "plot-stride" := by
    have := hp.plotStride
    rcases hv.plotStride with hv | ⟨i, hv, _⟩
    · rw [Dict.getItem, hv, ok_bind] at this
      have := Except.ok.inj this
      simp [intOption, hv, ← this]
    · rw [Dict.getItem, hv, ok_bind] at this
      have := Except.ok.inj this
      simp [intOption, hv, ← this]
  rcases hb with ⟨h1, h2⟩ | ⟨h1, h2⟩
  · obtain ⟨k1, k2⟩ := hp.writeNeeds (c4.2 h1)
    rcases h2 with h2 | h2
    · have := a4.1 k1
      omega
    · rw [b3.1 k2] at h2
      cases h2
  · obtain ⟨k1, k2⟩ := hp.plotNeeds (by rw [e5]; exact h1)
    rcases h2 with h2 | h2
    · have := a4.1 k1
      omega
    · exact d3.1 k2 h2

/-- **C112.** Input with contradicting output settings is rejected by the whole program while the actions are set up: no step is
executed. -/
theorem main_rejects_partial (w : World R) (file : Option (List Section)) (config : Input ℝ) (hp : parseAll 1 w.conv file = .ok config)
    (hb : BadOutput config) :
    (∃ e, setupRequired w config = .error e ∧ mainProgram w file = .uncaught e) ∨
    ∃ r e, setupRequired w config = .ok r ∧ setupOptional w config r.cfg r.sim = .error e ∧ mainProgram w file = raise caughtSetup e := by
  have hv := input_valid 1 one_pos file config hp
  unfold mainProgram
  rw [hp]
  simp only [mainFrom]
  cases hr : setupRequired w config with
  | error e => exact Or.inl ⟨e, rfl, rfl⟩
  | ok r =>
    right
    cases ho : setupOptional w config r.cfg r.sim with
    | error e => exact ⟨r, e, rfl, ho, by simp only [ho]⟩
    | ok x =>
      exfalso
      obtain ⟨c', s'⟩ := x
      obtain ⟨hc, hs⟩ := setupRequired_parts w config r hr
      obtain ⟨_, _, _, _, _, _, _, h3, h4, h5, h6, _⟩ := setupOptional_parts w config _ c' _ s' hc hs ho
      rcases hb with ⟨o, ho, hb⟩ | ⟨o, ho, hb⟩ | ⟨o, ho, hb⟩ | ⟨o, ho, hb⟩
      · rw [ho] at h3
        obtain ⟨t, b, _, hb', _⟩ := h3
        exact setupHistogram_rejects o (hv.histogram o ho).toValidOutput t hb b hb'
      · rw [ho] at h4
        obtain ⟨y, b, _, hb', _⟩ := h4
        exact setupFes_rejects w o (hv.fes o ho) _ y hb b hb'
      · rw [ho] at h5
        obtain ⟨f, y, b, _, _, hb', _⟩ := h5
        obtain ⟨_, _, _, _, states, hs, hm⟩ := setupDeltaF_inv w o _ _ y b hb'
        rw [(setupDeltaF_rejects w o (hv.deltaF o ho).toValidOutput _ _ y states hs _ hm).1 hb] at hb'
        cases hb'
      · rw [ho] at h6
        obtain ⟨b, hb', _⟩ := h6
        obtain ⟨_, _, _, hs⟩ := setupDistribution_inv w o b hb'
        rw [(setupDistribution_rejects w o (hv.particleDistribution o ho).toValidOutput _ hs).1 hb] at hb'
        cases hb'

end Bdld
