import Verif.Props.MainFiles
import Verif.Props.Headers

/-
C88: names and contents of all histogram and FES files of a run.
-/

namespace Bdld

open Spec

namespace Spec

/-- Value of the option `filename`; empty if it is not given. -/
def filenameOf (o : Dict (OptVal ℝ)) : String :=
  match o.get? "filename" with
  | some (.base (.str s)) => s
  | _ => ""

/-- Files of a run of `n` steps: for every multiple `t` of the write stride a file `filename_t` with the state at this
step, and at the end the file `filename`. -/
def gridFiles {α : Type} (o : Dict (OptVal ℝ)) (n : Nat) (content : Nat → α) (final : α) : List (String × α) :=
  if hasFilename o then
    (sampledSteps (natOption o "write-stride" 0) 0 n).map (fun t => (filenameOf o ++ "_" ++ Nat.repr t, content t)) ++
      [(filenameOf o, final)]
  else []

end Spec

/-! ### Write strides -/

/-- The output options of `[histogram]` and `[fes]`. -/
structure GridOptions (o : Dict (OptVal ℝ)) (out : GridOut) : Prop where
  name : truthyStr out.filename = hasFilename o ∧ (hasFilename o = true → out.filename = some (filenameOf o))
  stride : out.writeStride.getD 0 = natOption o "write-stride" 0
  both : truthyNat out.writeStride = true → hasFilename o = true

theorem gridOptions_new (o : Dict (OptVal ℝ)) (hv : ValidOutput o) (v1 v2 : OptVal ℝ) (f : Option String)
    (ws : Option Nat) (g1 : o.getItem "filename" = .ok v1) (f1 : v1.asOptStr = .ok f)
    (g2 : o.getItem "write-stride" = .ok v2) (f2 : v2.asOptStride = .ok ws)
    (hboth : truthyNat ws = true → truthyStr f = true) : GridOptions o ⟨f, ws⟩ := by
  have h1 := filenameOption o v1 f g1 f1
  refine ⟨⟨h1, fun h => ?_⟩, ?_, fun h => by rw [← h1]; exact hboth h⟩
  · unfold Dict.getItem at g1
    split at g1
    · rename_i x hx
      cases g1
      unfold OptVal.asOptStr at f1
      unfold filenameOf
      rw [hx]
      split at f1 <;> cases f1
      · rw [← h1] at h; cases h
      · rfl
    · cases g1
  · have h2 := (strideOption o "write-stride" v2 ws 0 hv.writeStride g2 f2).1
    rw [← h2]
    rcases ws with _ | _ | k <;> rfl

theorem sampledSteps_succ (k n : Nat) :
    sampledSteps k 0 (n + 1) = sampledSteps k 0 n ++ if k ∣ n + 1 then [n + 1] else [] := by
  rw [sampledSteps, List.range_succ, List.filter_append, sampledSteps]
  congr 1
  by_cases h : k ∣ n + 1 <;> simp [h]

theorem gridWriteStride_eq {α : Type} (o : Dict (OptVal ℝ)) (out : GridOut) (h : GridOptions o out) (t : Nat)
    (x : α) (wr : List (String × α)) : gridWriteStride out (t + 1) x wr =
      wr ++ if natOption o "write-stride" 0 ∣ t + 1 then [(filenameOf o ++ "_" ++ Nat.repr (t + 1), x)] else [] := by
  unfold gridWriteStride
  rw [h.stride]
  by_cases hw : truthyNat out.writeStride = true
  · have hf := h.both hw
    have hn := h.name.2 hf
    have ht := h.name.1.trans hf
    by_cases hd : natOption o "write-stride" 0 ∣ t + 1
    · have : (t + 1) % natOption o "write-stride" 0 = 0 := Nat.mod_eq_zero_of_dvd hd
      rw [if_pos hd, hw, this]
      simp only [beq_self_eq_true, Bool.and_true, if_true, gridWrite, ht]
      rw [hn]
      rfl
    · have : ((t + 1) % natOption o "write-stride" 0 == 0) = false := by
        simpa [Nat.dvd_iff_mod_eq_zero] using hd
      rw [if_neg hd, this]
      simp
  · have h0 : natOption o "write-stride" 0 = 0 := by
      rw [← h.stride]
      rcases hs : out.writeStride with _ | _ | k
      · rfl
      · rfl
      · rw [hs] at hw; exact absurd rfl hw
    rw [h0, if_neg (by simp)]
    simp

theorem gridWrite_final {α : Type} (o : Dict (OptVal ℝ)) (out : GridOut) (h : GridOptions o out) (n : Nat)
    (content : Nat → α) (x : α) : gridWrite out none x ((sampledSteps (natOption o "write-stride" 0) 0 n).map
      (fun t => (filenameOf o ++ "_" ++ Nat.repr t, content t))) = gridFiles o n content x := by
  unfold gridWrite gridFiles
  rw [h.name.1]
  cases hf : hasFilename o with
  | true =>
    rw [h.name.2 hf]
    rfl
  | false =>
    have h0 : natOption o "write-stride" 0 = 0 := by
      rw [← h.stride]
      rcases hs : out.writeStride with _ | _ | k
      · rfl
      · rfl
      · have := h.both (by rw [hs]; rfl)
        rw [hf] at this
        cases this
    have : sampledSteps 0 0 n = [] := by
      rw [List.eq_nil_iff_forall_not_mem]
      intro t ht
      rw [mem_sampledSteps] at ht
      have := Nat.eq_zero_of_zero_dvd ht.2.2
      omega
    rw [h0, this]
    rfl

/-! ### Set-up -/

theorem setupHistogram_out {d : Nat} (o : Dict (OptVal ℝ)) (t : TrajCfg ℝ) (b : HistCfg × GridOut × Histogram ℝ)
    (hv : ValidOutput o) (h : setupHistogram d o t = .ok b) : GridOptions o b.2.1 := by
  simp only [setupHistogram] at h
  obtain ⟨⟨ranges, nBins⟩, _, h⟩ := bind_ok h
  obtain ⟨_, _, h⟩ := bind_ok h
  obtain ⟨stride, _, h⟩ := bind_ok h
  obtain ⟨_, _, h⟩ := bind_ok h
  obtain ⟨reset, _, h⟩ := bind_ok h
  obtain ⟨v1, g1, h⟩ := bind_ok h
  obtain ⟨filename, f1, h⟩ := bind_ok h
  obtain ⟨v2, g2, h⟩ := bind_ok h
  obtain ⟨ws, f2, h⟩ := bind_ok h
  obtain ⟨⟨hc, h0⟩, hh, h⟩ := bind_ok h
  obtain ⟨_, _, h⟩ := bind_ok h
  cases h
  refine gridOptions_new o hv v1 v2 filename ws g1 f1 g2 f2 (fun hw => ?_)
  by_contra hf
  simp only [HistCfg.new, pure_eq_ok] at hh
  rw [Bool.not_eq_true] at hf
  simp only [hw, hf] at hh
  split at hh
  · cases hh
  split at hh
  · cases hh
  obtain ⟨_, _, hh⟩ := bind_ok hh
  cases hh

theorem setupFes_out {R : Type} {d : Nat} (w : World R) (o : Dict (OptVal ℝ)) (ld : LdCfg ℝ d) (y : Histogram ℝ)
    (b : FesCfg × Nd (WithTop ℝ)) (hv : ValidOutput o) (h : setupFes w o ld y = .ok b) : GridOptions o b.1.out := by
  have hp := setupFes_parts w o ld y b h
  obtain ⟨v1, g1, f1⟩ := bind_ok hp.filename
  obtain ⟨v2, g2, f2⟩ := bind_ok hp.writeStride
  exact gridOptions_new o hv v1 v2 _ _ g1 f1 g2 f2 (fun hw => (hp.writeNeeds hw).2)

/-! ### The run -/

section
variable {R : Type} {d : Nat}

/-- Files of the histogram written during the steps. -/
theorem steps_histWrites (w : World R) (c : SimCfg d) (s : Sim d R) (hb : c.bd.isSome = s.bd.isSome)
    (t : TrajCfg ℝ) (x : TrajState ℝ) (ht : c.traj = some t) (hx : s.traj = some x)
    (hc : HistCfg) (out : GridOut) (h0 : Histogram ℝ) (hh : c.hist = some (hc, out)) (hh0 : s.hist = some h0)
    (o : Dict (OptVal ℝ)) (ho : GridOptions o out) (hw : s.histWrites = []) (n : Nat) :
    ∀ s', runSteps w c n s = .ok s' → ∃ y : Nat → Histogram ℝ,
      s'.histWrites = (sampledSteps (natOption o "write-stride" 0) 0 n).map
        (fun k => (filenameOf o ++ "_" ++ Nat.repr k, y k)) ∧
      ∀ k, 0 < k → k ≤ n → ∀ u, runSteps w c k s = .ok u →
        u.hist = some (if k ∈ hc.reset then (y k).clear else y k) := by
  induction n with
  | zero =>
    intro s' h
    cases h
    exact ⟨fun _ => h0, by rw [hw]; simp, fun k h1 h2 => by omega⟩
  | succ n ih =>
    intro s' h
    obtain ⟨u, hu, ha⟩ := runSteps_succ w c n s s' h
    obtain ⟨y, e1, e2⟩ := ih u hu
    obtain ⟨y', g', hy', hg', _⟩ := steps_hist w c s hb t x ht hx hc out h0 hh hh0 (n + 1) s' h
    obtain ⟨_, g, _, hg, _⟩ := steps_hist w c s hb t x ht hx hc out h0 hh hh0 n u hu
    have hs := ha.histWrites
    have hs2 := ha.hist
    simp only [HistWriteStep, ht, hy', hh, hg] at hs
    simp only [HistStep, ht, hy', hh, hg] at hs2
    obtain ⟨z, hz, e⟩ := hs
    obtain ⟨z', hz', e'⟩ := hs2
    rw [histRun_reset _ _ _ _ _ _ hz] at hz'
    cases hz'
    refine ⟨fun k => if k = n + 1 then z else y k, ?_, ?_⟩
    · rw [e, gridWriteStride_eq o out ho, e1, sampledSteps_succ, List.map_append]
      congr 1
      · refine List.map_congr_left (fun k hk => ?_)
        rw [mem_sampledSteps] at hk
        have hk' : k ≠ n + 1 := by omega
        simp only [if_neg hk']
      · by_cases hd : natOption o "write-stride" 0 ∣ n + 1 <;> simp [hd]
    · intro k h1 h2 v hv
      by_cases hk : k = n + 1
      · subst hk
        rw [h] at hv
        cases hv
        simp only [if_true]
        exact e'
      · simp only [if_neg hk]
        exact e2 k h1 (by omega) v hv

/-- Files of the FES written during the steps. -/
theorem steps_fesWrites (w : World R) (c : SimCfg d) (s : Sim d R) (f : FesCfg) (hf : c.fes = some f)
    (h0 : ∃ h x, s.hist = some h ∧ calculateFes h.counts f.kt true = .ok x ∧ s.fes = some x)
    (o : Dict (OptVal ℝ)) (ho : GridOptions o f.out) (hw : s.fesWrites = []) (n : Nat) :
    ∀ s', runSteps w c n s = .ok s' → s'.fesWrites = (sampledSteps (natOption o "write-stride" 0) 0 n).map
        (fun k => (filenameOf o ++ "_" ++ Nat.repr k, s.fesAt w c k)) := by
  induction n with
  | zero => intro s' h; cases h; rw [hw]; simp
  | succ n ih =>
    intro s' h
    obtain ⟨u, hu, ha⟩ := runSteps_succ w c n s s' h
    have e1 := ih u hu
    obtain ⟨_, _, x, _, _, _, hx⟩ := steps_fes w c s f hf h0 (n + 1) s' h
    obtain ⟨h0', _, hh0, _⟩ := h0
    have hsome := steps_histSome w c s (n + 1) s' h
    rw [hh0] at hsome
    obtain ⟨g, hg⟩ := Option.isSome_iff_exists.1 hsome
    have hs := ha.fesWrites
    simp only [FesWriteStep, hf, hg, hx] at hs
    rw [hs, gridWriteStride_eq o f.out ho, e1, sampledSteps_succ, List.map_append]
    congr 1
    by_cases hd : natOption o "write-stride" 0 ∣ n + 1
    · simp [hd, fesAt_eq w c s s' (n + 1) x h hx]
    · simp [hd]

end

section
variable {R : Type} {w : World R} {file : Option (List Section)} {a : AnySim R} {config : Input ℝ} {n : Nat}
  {s0 : Sim a.d R}

/-- C88, histogram: the files of the run are those of the multiples of the write stride and the one at the end. The
content is the histogram at that step; if the histogram is reset in the same step, it is written before. -/
theorem main_histogram_files (hr : FinishedRun w file a config n s0) (o oh : Dict (OptVal ℝ))
    (ho : config.trajectories = some o) (hoh : config.histogram = some oh) : ∃ hc out h y,
      a.cfg.hist = some (hc, out) ∧ a.sim.hist = some h ∧ a.sim.histWrites = gridFiles oh n y h ∧
      ∀ t, 0 < t → t ≤ n → hr.histAt t = if t ∈ hc.reset then (y t).clear else y t := by
  have hv := (input_valid 1 one_pos file config hr.parse).histogram oh hoh
  obtain ⟨h1, h2⟩ := main_traj_setup hr o ho
  obtain ⟨_, _, _, _, _, _, _, h3, _, _, _, hw, _⟩ := setupOptional_parts w config _ _ _ _ rfl rfl hr.optional
  rw [hoh] at h3
  obtain ⟨t, b, ht, hb, hb1, hb2⟩ := h3
  have hopt := setupHistogram_out _ _ _ hv.toValidOutput hb
  obtain ⟨u, hu, hfin⟩ := bind_ok hr.sim
  obtain ⟨y, e1, e2⟩ := steps_histWrites w a.cfg s0 hr.setup.bdSome _ _ h1 h2 b.1 b.2.1 b.2.2 hb1 hb2 oh hopt hw n u hu
  obtain ⟨x, g, hx, hg, _⟩ := steps_hist w a.cfg s0 hr.setup.bdSome _ _ h1 h2 b.1 b.2.1 b.2.2 hb1 hb2 n u hu
  have hF := final_analysis a.cfg n u a.sim hfin
  obtain ⟨z, hz, ez⟩ : ∃ z, a.sim.traj = some z ∧ True := by
    have := hF.traj
    simp only [TrajFinal, h1, hx] at this
    obtain ⟨z, _, e⟩ := this
    exact ⟨z, e, trivial⟩
  have hH := hF.hist
  simp only [HistFinal, h1, hz, hb1, hg] at hH
  obtain ⟨h, _, eh, ew⟩ := hH
  refine ⟨b.1, b.2.1, h, y, hb1, eh, ?_, ?_⟩
  · rw [ew, e1, gridWrite_final oh b.2.1 hopt]
  · intro k k1 k2
    obtain ⟨v, hv⟩ := runSteps_le w a.cfg s0 n u hu k k2
    have := e2 k k1 k2 v hv
    unfold FinishedRun.histAt
    rw [hv]
    simp only [this, Option.getD_some]

/-- C88, histogram without resets: the content is the histogram after the step. -/
theorem main_histogram_files_noReset (hr : FinishedRun w file a config n s0) (o oh : Dict (OptVal ℝ))
    (ho : config.trajectories = some o) (hoh : config.histogram = some oh) (hreset : oh.get? "reset" = some .none) :
    ∃ h, a.sim.hist = some h ∧ a.sim.histWrites = gridFiles oh n hr.histAt h := by
  obtain ⟨hc, out, h, y, e1, e2, e3, e4⟩ := main_histogram_files hr o oh ho hoh
  have hv := (input_valid 1 one_pos file config hr.parse).histogram oh hoh
  obtain ⟨_, _, _, _, _, _, _, h3, _⟩ := setupOptional_parts w config _ _ _ _ rfl rfl hr.optional
  rw [hoh] at h3
  obtain ⟨t, b, ht, hb, hb1, hb2⟩ := h3
  have hres := (setupHistogram_options _ _ _ hv.toValidOutput hb).2.1 hreset
  rw [hb1] at e1
  cases e1
  refine ⟨h, e2, ?_⟩
  rw [e3]
  unfold gridFiles
  split
  · congr 1
    refine List.map_congr_left (fun t ht => ?_)
    rw [mem_sampledSteps] at ht
    rw [e4 t ht.1 ht.2.1, hres, if_neg (by simp)]
  · rfl

/-- C88, FES: the files of the run are those of the multiples of the write stride and the one at the end. The content
is the FES of the histogram at the last multiple of the FES stride, `kT ln(max / count)` per bin. -/
theorem main_fes_files (hr : FinishedRun w file a config n s0) (o : Dict (OptVal ℝ)) (ho : config.fes = some o) :
    ∃ h, a.sim.hist = some h ∧ a.sim.fesWrites = gridFiles o n
      (fun t => (hr.histAt (fesStep o t)).counts.map
        (freeEnergy a.cfg.ld.kt (maxCount (hr.histAt (fesStep o t)).counts.flat)))
      (h.counts.map (freeEnergy a.cfg.ld.kt (maxCount h.counts.flat))) := by
  obtain ⟨h, hh, hfes⟩ := main_fes hr o ho
  refine ⟨h, hh, ?_⟩
  have hv := (input_valid 1 one_pos file config hr.parse).fes o ho
  obtain ⟨_, _, _, _, _, _, _, _, h4, _, _, _, hw, _⟩ := setupOptional_parts w config _ _ _ _ rfl rfl hr.optional
  rw [ho] at h4
  obtain ⟨y, b, hy, hb, hc, hs⟩ := h4
  have hopt := setupFes_out _ _ _ _ _ hv.toValidOutput hb
  have hlast := setupFes_options _ _ _ _ _ hv.toValidOutput hb
  have hkt := (setupFes_parts _ _ _ _ _ hb).kt
  have hcalc := (setupFes_parts _ _ _ _ _ hb).fes
  have h0 : ∃ h x, s0.hist = some h ∧ calculateFes h.counts b.1.kt true = .ok x ∧ s0.fes = some x :=
    ⟨y, b.2, hy, by rw [hkt]; exact hcalc, hs⟩
  obtain ⟨u, hu, hfin⟩ := bind_ok hr.sim
  have e1 := steps_fesWrites w a.cfg s0 b.1 hc h0 o hopt hw n u hu
  obtain ⟨_, _, x, _, _, _, hx⟩ := steps_fes w a.cfg s0 b.1 hc h0 n u hu
  have hF := (final_analysis a.cfg n u a.sim hfin).fes
  simp only [FesFinal, hc, hh, hx] at hF
  obtain ⟨z, _, ez, ew⟩ := hF
  rw [hfes] at ez
  cases ez
  rw [ew, e1, gridWrite_final o b.1.out hopt]
  obtain ⟨p1, _⟩ := hr.setup.fes _ hc
  obtain ⟨hcc, hhc⟩ := Option.isSome_iff_exists.1 p1
  obtain ⟨_, h0', _, e0, _, _, he, _⟩ := hr.setup.hist hcc.1 hcc.2 hhc
  unfold gridFiles
  split
  · congr 1
    refine List.map_congr_left (fun t ht => ?_)
    rw [mem_sampledSteps] at ht
    obtain ⟨v, hv⟩ := runSteps_le w a.cfg s0 n u hu t ht.2.1
    obtain ⟨v', h', x', hv', hh', hx', hvx⟩ := steps_fes w a.cfg s0 b.1 hc h0 t v hv
    obtain ⟨k, hk, hbins⟩ := runSteps_bins w a.cfg s0 h0' e0 _ v' hv'
    rw [hh'] at hk
    cases hk
    rw [fesAt_eq w a.cfg s0 v t x' hv hvx]
    rw [hlast] at hv'
    have hA : hr.histAt (fesStep o t) = h' := by
      unfold FinishedRun.histAt
      rw [hv']
      simp only [hh', Option.getD_some]
    beta_reduce
    rw [hA]
    have := fes_spec h'.counts a.cfg.ld.kt hr.constants.2.1 (counts_ne_nil h' (by rw [hbins]; exact he))
    rw [hkt] at hx'
    have hx'' := Except.ok.inj (hx'.symm.trans this)
    rw [hx'']
  · rfl

/-! ### Lines of the files -/

/-- Axes of a histogram: as many values as bins. -/
theorem binCenters_len (e : List ℝ) : (binCenters e).length = e.length - 1 := by
  simp [binCenters]

/-- The file of a one-dimensional histogram: bin centre and number of counts of every bin. -/
theorem histogram_file_one (h : Histogram ℝ) (edges : List ℝ) (hb : h.bins = [edges]) (header : List String) :
    gridFile h.axes (h.counts.map (fun n : Nat => (n : ℝ))).flat h.shape header =
      .ok (some (header.map .header ++ gridLines1 (binCenters edges) (fun i => ((h.data [i] : Nat) : ℝ)))) := by
  have hax : h.axes = [binCenters edges] := by simp [Histogram.axes, hb]
  have hsh : h.shape = [(binCenters edges).length] := by simp [Histogram.shape, hb, binCenters_len]
  have hc : (h.counts.map (fun n : Nat => (n : ℝ))).flat =
      (Nd.ofFn [(binCenters edges).length] (fun idx => ((h.data idx : Nat) : ℝ))).flat := by
    simp [Histogram.counts, Nd.map, Nd.ofFn, hsh, Function.comp_def]
  rw [hax, hc, gridFile_one]

/-- The file of a two-dimensional histogram: bin centres and number of counts of every bin. -/
theorem histogram_file_two (h : Histogram ℝ) (e1 e2 : List ℝ) (hb : h.bins = [e1, e2]) (h1 : 2 ≤ e1.length)
    (h2 : 2 ≤ e2.length) (header : List String) :
    gridFile h.axes (h.counts.map (fun n : Nat => (n : ℝ))).flat h.shape header =
      .ok (some (header.map .header ++ gridLines2 (binCenters e1) (binCenters e2)
        (fun i j => ((h.data [i, j] : Nat) : ℝ)))) := by
  have hax : h.axes = [binCenters e1, binCenters e2] := by simp [Histogram.axes, hb]
  have hsh : h.shape = [(binCenters e1).length, (binCenters e2).length] := by
    simp [Histogram.shape, hb, binCenters_len]
  have hc : (h.counts.map (fun n : Nat => (n : ℝ))).flat =
      (Nd.ofFn [(binCenters e1).length, (binCenters e2).length] (fun idx => ((h.data idx : Nat) : ℝ))).flat := by
    simp [Histogram.counts, Nd.map, Nd.ofFn, hsh, Function.comp_def]
  have n1 : binCenters e1 ≠ [] := by
    intro h; have := binCenters_len e1; rw [h] at this; simp at this; omega
  have n2 : binCenters e2 ≠ [] := by
    intro h; have := binCenters_len e2; rw [h] at this; simp at this; omega
  rw [hax, hc, hsh, gridFile_two _ _ n1 n2]

end

end Bdld
