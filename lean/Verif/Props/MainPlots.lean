import Verif.Spec.Plot
import Verif.Props.MainGridFiles
import Verif.Props.MainProgress
import Verif.Props.FesGrid
import Verif.Props.Plot

/-
C96: names and contents of all plots of a run.
-/

namespace Bdld

open Spec

/-! ### One plot -/

theorem image_rows {α : Type} (n m : Nat) (f : List Nat → α) :
    (List.range n).map (fun i => (((indices [n, m]).map f).drop (i * m)).take m) =
      (List.range n).map (fun i => (List.range m).map (fun j => f [i, j])) := by
  refine List.map_congr_left (fun i hi => ?_)
  have hi := List.mem_range.1 hi
  refine List.ext_getElem? (fun j => ?_)
  rw [List.getElem?_take, List.getElem?_drop]
  by_cases hj : j < m
  · rw [if_pos hj]
    have h1 := indices_ravel [n, m] [i, j] (by simp [inShape, hi, hj])
    simp only [ravel, List.prod_cons, List.prod_nil, mul_one, add_zero] at h1
    rw [List.getElem?_map, h1, List.getElem?_map, List.getElem?_range hj]
    rfl
  · rw [if_neg hj, List.getElem?_eq_none (by simpa using hj)]

theorem foldl_max_ge (l : List ℝ) (a : ℝ) : a ≤ l.foldl max a ∧ ∀ x ∈ l, x ≤ l.foldl max a := by
  induction l generalizing a with
  | nil => simp
  | cons b l ih =>
    obtain ⟨h1, h2⟩ := ih (max a b)
    refine ⟨(le_max_left a b).trans h1, fun x hx => ?_⟩
    rcases List.mem_cons.1 hx with rfl | hx
    · exact (le_max_right a x).trans h1
    · exact h2 x hx

/-- The largest finite value bounds all finite values. -/
theorem finiteMax_ge (l : List (WithTop ℝ)) (m : ℝ) (h : finiteMax l = .ok m) (v : ℝ) (hv : (v : WithTop ℝ) ∈ l) :
    v ≤ m := by
  cases l with
  | nil => cases hv
  | cons a l =>
    cases h
    obtain ⟨h1, h2⟩ := foldl_max_ge (l.map (fun v => v.untopD 0)) (a.untopD 0)
    rcases List.mem_cons.1 hv with rfl | hv
    · exact h1
    · exact h2 v (List.mem_map.2 ⟨_, hv, rfl⟩)

theorem freeEnergy_nonneg (kt : ℝ) (hk : 0 < kt) (m n : Nat) (hn : n ≤ m) (v : ℝ)
    (h : freeEnergy kt m n = (v : WithTop ℝ)) : 0 ≤ v := by
  unfold freeEnergy at h
  split at h
  · exact absurd h.symm (WithTop.coe_ne_top)
  · rename_i h0
    have : kt * Real.log ((m : ℝ) / n) = v := WithTop.coe_injective h
    rw [← this]
    have hpos : (0 : ℝ) < n := by exact_mod_cast Nat.pos_of_ne_zero h0
    refine mul_nonneg hk.le (Real.log_nonneg ?_)
    rw [le_div_iff₀ hpos, one_mul]
    exact_mod_cast hn

/-- The limits of the plots are those of the options. -/
theorem domainOption (o : Dict (OptVal ℝ)) (dom : Option (List ℝ))
    (h : (o.getItem "plot-domain" >>= OptVal.asOptFloats) = .ok dom) :
    (o.get? "plot-domain" = some .none → dom = none) ∧
      ∀ lo hi, o.get? "plot-domain" = some (.list [.float lo, .float hi]) → dom = some [lo, hi] := by
  obtain ⟨v, h1, h2⟩ := bind_ok h
  constructor
  · intro hn
    rw [Dict.getItem, hn] at h1
    cases h1
    cases h2
    rfl
  · intro lo hi hn
    rw [Dict.getItem, hn] at h1
    cases h1
    cases h2
    rfl

/-- Figure of a two-dimensional FES. -/
theorem plotFes_two (o : Dict (OptVal ℝ)) (kt : ℝ) (h : Histogram ℝ) (e1 e2 : List ℝ) (he : h.bins = [e1, e2])
    (ref : List ℝ) (dom : Option (List ℝ))
    (hd2 : ∀ lo hi, o.get? "plot-domain" = some (.list [.float lo, .float hi]) → dom = some [lo, hi])
    (title : String) (g : Figure)
    (hg : plotFes (h.counts.map (freeEnergy kt (maxCount h.counts.flat))) h.axes ref dom title = .ok g) :
    ImagePlot o (binCenters e1) (binCenters e2)
      (fun i j => freeEnergy kt (maxCount h.counts.flat) (h.data [i, j])) g := by
  have hax : h.axes = [binCenters e1, binCenters e2] := by simp [Histogram.axes, he]
  have hsh : h.shape = [e1.length - 1, e2.length - 1] := by simp [Histogram.shape, he]
  have hshape : (h.counts.map (freeEnergy kt (maxCount h.counts.flat))).shape = [e1.length - 1, e2.length - 1] := hsh
  have hfl' : (h.counts.map (freeEnergy kt (maxCount h.counts.flat))).flat = (indices [e1.length - 1, e2.length - 1]).map
      (fun idx => freeEnergy kt (maxCount h.counts.flat) (h.data idx)) := by
    have : ∀ f : Nat → WithTop ℝ, (h.counts.map f).flat = (indices [e1.length - 1, e2.length - 1]).map
      (fun idx => f (h.data idx)) := by
      intro f
      rw [Nd.map, Histogram.counts, Nd.ofFn, hsh, List.map_map]
      rfl
    exact this _
  simp only [plotFes, hshape, hax, hfl'] at hg
  obtain ⟨clim, hc, hg⟩ := bind_ok hg
  cases hg
  refine ⟨⟨clim, ?_, ?_⟩⟩
  · intro lo hi hl
    rw [hd2 lo hi hl] at hc
    cases hc
    rfl
  · rw [image_rows, binCenters_len, binCenters_len]
    rfl

/-- A figure made by `plot_fes` shows the FES of the histogram. -/
theorem plotFes_spec {d : Nat} (o : Dict (OptVal ℝ)) (pot : Potential ℝ d) (kt : ℝ) (hk : 0 < kt) (h h0 : Histogram ℝ)
    (hb : h.bins = h0.bins) (hd : h.bins.length = d) (ref : List ℝ) (hr : fesReference pot h0 = .ok ref)
    (dom : Option (List ℝ)) (hdom : (o.getItem "plot-domain" >>= OptVal.asOptFloats) = .ok dom)
    (title : String) (g : Figure)
    (hg : plotFes (h.counts.map (freeEnergy kt (maxCount h.counts.flat))) h.axes ref dom title = .ok g) :
    (∀ edges, h.bins = [edges] → LinePlot o (binCenters edges) (fun x => pot.energy (fun _ => x))
      ((List.range (edges.length - 1)).map (fun i => freeEnergy kt (maxCount h.counts.flat) (h.data [i]))) title g) ∧
    (∀ e1 e2, h.bins = [e1, e2] → ImagePlot o (binCenters e1) (binCenters e2)
      (fun i j => freeEnergy kt (maxCount h.counts.flat) (h.data [i, j])) g) ∧
    (3 ≤ h.bins.length → g.artists = []) := by
  obtain ⟨hd1, hd2⟩ := domainOption o dom hdom
  refine ⟨fun edges he => ?_, fun e1 e2 he => ?_, fun hl => ?_⟩
  · rw [he] at hd
    simp only [List.length_cons, List.length_nil, zero_add] at hd
    subst hd
    have hax : h.axes = [binCenters edges] := by simp [Histogram.axes, he]
    have hax0 : h0.axes = [binCenters edges] := by simp [Histogram.axes, ← hb, he]
    have hsh : h.shape = [edges.length - 1] := by simp [Histogram.shape, he]
    have hfl : h.counts.flat = (List.range (edges.length - 1)).map (fun i => h.data [i]) := by
      simp [Histogram.counts, Nd.ofFn, hsh, indices, List.flatMap_def, Function.comp_def]
      rw [← List.flatMap_def, List.map_eq_flatMap]
    have hfl' : (h.counts.map (freeEnergy kt (maxCount h.counts.flat))).flat = (List.range (edges.length - 1)).map
        (fun i => freeEnergy kt (maxCount h.counts.flat) (h.data [i])) := by
      have : ∀ f : Nat → WithTop ℝ, (h.counts.map f).flat = (List.range (edges.length - 1)).map
        (fun i => f (h.data [i])) := by
        intro f
        rw [Nd.map, hfl, List.map_map]
        rfl
      exact this _
    have hpts : ((binCenters edges).map (fun x => [x])).map (fun q (k : Fin 1) => q.getD k 0) =
        (binCenters edges).map (fun x _ => x) := by
      rw [List.map_map]
      refine List.map_congr_left (fun x _ => funext (fun k => ?_))
      simp
    rw [fesReference, hax0, points_1d, ok_bind, hpts] at hr
    unfold calculateReference at hr
    simp only [if_true, pure_eq_ok, List.map_map, Function.comp_def] at hr
    obtain ⟨m, hm, hr⟩ := bind_ok hr
    cases hr
    have hne : (binCenters edges).map (fun x => pot.energy (fun _ => x)) ≠ [] := by
      intro h'
      rw [h'] at hm
      cases hm
    obtain ⟨m', e1, e2, e3⟩ := npMin_spec _ hne
    rw [hm] at e1
    cases e1
    have hshape : (h.counts.map (freeEnergy kt (maxCount h.counts.flat))).shape = [edges.length - 1] := hsh
    simp only [plotFes, hshape, hax, hfl'] at hg
    split at hg
    · cases hg
    obtain ⟨ylim, hy, hg⟩ := bind_ok hg
    cases hg
    refine ⟨⟨m, ?_, ?_, ?_⟩, ?_, ?_, rfl⟩
    · obtain ⟨x, hx, ex⟩ := List.mem_map.1 e2
      exact ⟨x, hx, ex⟩
    · intro x hx
      exact e3 _ (List.mem_map_of_mem hx)
    · simp [Function.comp_def]
    · intro lo hi hl
      rw [hd2 lo hi hl] at hy
      cases hy
      rfl
    · intro hl
      rw [hd1 hl] at hy
      obtain ⟨M, hM, hy⟩ := bind_ok hy
      cases hy
      refine ⟨_, _, rfl, fun v hv => ?_⟩
      have h1 := finiteMax_ge _ M hM v hv
      have h2 : 0 ≤ v := by
        obtain ⟨i, hi, ei⟩ := List.mem_map.1 hv
        refine freeEnergy_nonneg kt hk _ _ (maxCount_ge _ _ ?_) v ei
        rw [hfl]
        exact List.mem_map.2 ⟨i, hi, rfl⟩
      constructor <;> linarith
  · exact plotFes_two o kt h e1 e2 he ref dom hd2 title g hg
  · have hsh : (h.counts.map (freeEnergy kt (maxCount h.counts.flat))).shape.length = h.bins.length := by
      show h.shape.length = _
      simp [Histogram.shape]
    unfold plotFes at hg
    split at hg
    · cases hg
    · rename_i hs _; rw [hs] at hsh; simp at hsh; omega
    · cases hg
    · rename_i hs _; rw [hs] at hsh; simp at hsh; omega
    · cases hg; rfl

/-! ### The plots of a run -/

theorem forall₂_mem {α β : Type} {r : α → β → Prop} {l : List α} {m : List β} (h : List.Forall₂ r l m) {x : α}
    (hx : x ∈ l) : ∃ y ∈ m, r x y := by
  induction h with
  | nil => cases hx
  | cons h _ ih =>
    rcases List.mem_cons.1 hx with rfl | hx
    · exact ⟨_, List.mem_cons_self, h⟩
    · obtain ⟨y, hy, hr⟩ := ih hx
      exact ⟨y, List.mem_cons_of_mem _ hy, hr⟩

/-- One more plot. -/
def AddedPlot (c : PlotCfg) (fes : Nd (WithTop ℝ)) (axes : List (List ℝ)) (name title : String) (p : PlotOut) : Prop :=
  p.name = name ∧ p.asked = !saveable c.formats name ∧ (p.asked = true → c.terminal = true) ∧
    plotFes fes axes c.ref c.domain title = .ok p.figure

theorem savePlot_inv (save ask : Bool) (pl pl' : List PlotOut) (name : String) (g : Figure)
    (h : (if save = true then Except.ok (pl ++ [⟨name, g, false⟩])
      else if ask = true then Except.ok (pl ++ [⟨name, g, true⟩]) else Except.error PyErr.eofError) = .ok pl') :
    ∃ p, pl' = pl ++ [p] ∧ p.name = name ∧ p.asked = !save ∧ (p.asked = true → ask = true) ∧ p.figure = g := by
  cases save
  · cases ask
    · cases h
    · cases h
      exact ⟨_, rfl, rfl, rfl, fun _ => rfl, rfl⟩
  · cases h
    exact ⟨_, rfl, rfl, rfl, fun h => (by cases h), rfl⟩

theorem fesPlot_inv (c : PlotCfg) (step : Option Nat) (fes : Nd (WithTop ℝ)) (axes : List (List ℝ))
    (pl pl' : List PlotOut) (h : fesPlot c step fes axes pl = .ok pl') (hf : c.filename.getD "" ≠ "") :
    ∃ p, pl' = pl ++ [p] ∧ AddedPlot c fes axes
      (if truthyNat step then stepFilename (c.filename.getD "") (step.getD 0) else c.filename.getD "")
      (if truthyNat step then stepFilename c.title (step.getD 0) else c.title) p := by
  unfold fesPlot at h
  rw [if_neg hf] at h
  obtain ⟨g, hg, h⟩ := bind_ok h
  obtain ⟨p, h1, h2, h3, h4, h5⟩ := savePlot_inv _ _ _ _ _ _ h
  exact ⟨p, h1, h2, h3, h4, by rw [h5]; exact hg⟩

theorem pyMod_zero_iff (t : Nat) (k : Int) : pyMod (t : Int) k = 0 ↔ k.natAbs ∣ t := by
  unfold pyMod
  rw [← Int.natCast_dvd_natCast, Int.natAbs_dvd]
  exact ⟨Int.dvd_of_fmod_eq_zero, Int.fmod_eq_zero_of_dvd⟩

section
variable {R : Type} {d : Nat}

/-- The plots made during the steps. -/
theorem steps_plots (w : World R) (c : SimCfg d) (s : Sim d R) (f : FesCfg) (hf : c.fes = some f)
    (h0 : ∃ h x, s.hist = some h ∧ calculateFes h.counts f.kt true = .ok x ∧ s.fes = some x)
    (hw : s.plots = []) (hn : f.plot.stride.getD 0 ≠ 0 → f.plot.filename.getD "" ≠ "")
    (n : Nat) : ∀ s', runSteps w c n s = .ok s' → ∀ y, s.hist = some y → List.Forall₂
      (fun t p => AddedPlot f.plot (s.fesAt w c t) y.fesAxes (stepFilename (f.plot.filename.getD "") t)
        (stepFilename f.plot.title t) p)
      (sampledSteps (f.plot.stride.getD 0).natAbs 0 n) s'.plots := by
  induction n with
  | zero => intro s' h y _; cases h; rw [hw]; simp
  | succ n ih =>
    intro s' h y hy
    obtain ⟨u, hu, ha⟩ := runSteps_succ w c n s s' h
    have e1 := ih u hu y hy
    obtain ⟨_, _, x, _, _, _, hx⟩ := steps_fes w c s f hf h0 (n + 1) s' h
    obtain ⟨g, hg, hbins⟩ := runSteps_bins w c s y hy (n + 1) s' h
    have hs := ha.plots
    simp only [PlotStep, hf, hg, hx] at hs
    have hax : g.fesAxes = y.fesAxes := by
      unfold Histogram.fesAxes Histogram.pointRanges Histogram.shape Histogram.axes
      rw [hbins]
    rw [hax] at hs
    rw [sampledSteps_succ]
    unfold fesPlotStride at hs
    by_cases hd : (f.plot.stride.getD 0).natAbs ∣ n + 1
    · have hne : f.plot.stride.getD 0 ≠ 0 := by
        intro h'
        rw [h'] at hd
        have := Nat.eq_zero_of_zero_dvd hd
        omega
      rw [if_pos ⟨hne, (pyMod_zero_iff _ _).2 hd⟩] at hs
      obtain ⟨p, hp, hp'⟩ := fesPlot_inv _ _ _ _ _ _ hs (hn hne)
      rw [if_pos hd, hp]
      refine List.rel_append e1 (List.Forall₂.cons ?_ List.Forall₂.nil)
      rw [fesAt_eq w c s s' (n + 1) x h hx]
      exact hp'
    · rw [if_neg (fun h' => hd ((pyMod_zero_iff _ _).1 h'.2))] at hs
      rw [if_neg hd, List.append_nil, ← Except.ok.inj hs]
      exact e1

end

section
variable {R : Type} {w : World R} {file : Option (List Section)} {a : AnySim R} {config : Input ℝ} {n : Nat}
  {s0 : Sim a.d R}

theorem setupHistogram_uniform {d : Nat} (o : Dict (OptVal ℝ)) (t : TrajCfg ℝ) (b : HistCfg × GridOut × Histogram ℝ)
    (h : setupHistogram d o t = .ok b) : b.2.2.fesAxes = b.2.2.axes := by
  simp only [setupHistogram] at h
  obtain ⟨⟨ranges, nBins⟩, _, h⟩ := bind_ok h
  obtain ⟨_, _, h⟩ := bind_ok h
  obtain ⟨stride, _, h⟩ := bind_ok h
  obtain ⟨_, _, h⟩ := bind_ok h
  obtain ⟨reset, _, h⟩ := bind_ok h
  obtain ⟨_, _, h⟩ := bind_ok h
  obtain ⟨filename, _, h⟩ := bind_ok h
  obtain ⟨_, _, h⟩ := bind_ok h
  obtain ⟨ws, _, h⟩ := bind_ok h
  obtain ⟨⟨hc, h0⟩, hh, h⟩ := bind_ok h
  obtain ⟨_, _, h⟩ := bind_ok h
  cases h
  unfold HistCfg.new at hh
  simp only [pure_eq_ok] at hh
  split at hh
  · cases hh
  split at hh
  · cases hh
  obtain ⟨y, hy, hh⟩ := bind_ok hh
  split at hh
  · cases hh
  · cases hh
    exact fes_points_new _ _ _ _ hy rfl

/-- The FES after step `t`. -/
theorem main_fesAt (hr : FinishedRun w file a config n s0) (o : Dict (OptVal ℝ)) (ho : config.fes = some o)
    (y : Histogram ℝ) (hy : s0.hist = some y) (t : Nat) (ht : t ≤ n) :
    (hr.histAt (fesStep o t)).bins = y.bins ∧ s0.fesAt w a.cfg t = (hr.histAt (fesStep o t)).counts.map
      (freeEnergy a.cfg.ld.kt (maxCount (hr.histAt (fesStep o t)).counts.flat)) := by
  have hv := (input_valid 1 one_pos file config hr.parse).fes o ho
  obtain ⟨_, _, _, _, _, _, _, _, h4, _⟩ := setupOptional_parts w config _ _ _ _ rfl rfl hr.optional
  rw [ho] at h4
  obtain ⟨y', b, hy', hb, hc, hs⟩ := h4
  rw [hy] at hy'
  cases hy'
  have hlast := setupFes_options _ _ _ _ _ hv.toValidOutput hb
  have hkt := (setupFes_parts _ _ _ _ _ hb).kt
  have hcalc := (setupFes_parts _ _ _ _ _ hb).fes
  have h0 : ∃ h x, s0.hist = some h ∧ calculateFes h.counts b.1.kt true = .ok x ∧ s0.fes = some x :=
    ⟨y, b.2, hy, by rw [hkt]; exact hcalc, hs⟩
  obtain ⟨u, hu, _⟩ := bind_ok hr.sim
  obtain ⟨p1, _⟩ := hr.setup.fes _ hc
  obtain ⟨hcc, hhc⟩ := Option.isSome_iff_exists.1 p1
  obtain ⟨_, h0', _, e0, _, _, he, _⟩ := hr.setup.hist hcc.1 hcc.2 hhc
  rw [hy] at e0
  cases e0
  obtain ⟨v, hv⟩ := runSteps_le w a.cfg s0 n u hu t ht
  obtain ⟨v', h', x', hv', hh', hx', hvx⟩ := steps_fes w a.cfg s0 b.1 hc h0 t v hv
  obtain ⟨k, hk, hbins⟩ := runSteps_bins w a.cfg s0 y hy _ v' hv'
  rw [hh'] at hk
  cases hk
  rw [hlast] at hv'
  have hA : hr.histAt (fesStep o t) = h' := by
    unfold FinishedRun.histAt
    rw [hv']
    simp only [hh', Option.getD_some]
  rw [hA, fesAt_eq w a.cfg s0 v t x' hv hvx]
  refine ⟨hbins, ?_⟩
  have := fes_spec h'.counts a.cfg.ld.kt hr.constants.2.1 (counts_ne_nil h' (by rw [hbins]; exact he))
  rw [hkt] at hx'
  exact Except.ok.inj (hx'.symm.trans this)

/-- A plot of a run shows the FES. -/
theorem addedPlot_spec {d : Nat} (w : World R) (o : Dict (OptVal ℝ)) (ld : LdCfg ℝ d) (hk : 0 < ld.kt)
    (y h : Histogram ℝ) (f : FesCfg) (x : Nd (WithTop ℝ)) (hf : FesSetup w o ld y f x) (hu : y.fesAxes = y.axes)
    (hd : y.bins.length = d) (hb : h.bins = y.bins) (name title : String) (p : PlotOut)
    (hp : AddedPlot f.plot (h.counts.map (freeEnergy ld.kt (maxCount h.counts.flat))) y.fesAxes name title p) :
    IsPlot o ld.pot ld.kt w.figFormats w.terminal h name title p := by
  obtain ⟨h1, h2, h3, h4⟩ := hp
  have hax : y.axes = h.axes := by unfold Histogram.axes; rw [hb]
  rw [hu, hax] at h4
  obtain ⟨e1, e2, e3⟩ := plotFes_spec o ld.pot ld.kt hk h y hb (by rw [hb]; exact hd) _ hf.ref _ hf.plotDomain title _ h4
  rw [hf.formats] at h2
  rw [hf.terminal] at h3
  exact ⟨h1, h2, h3, e1, e2, e3⟩

/-- **C96.** The plots of a run: one for every multiple of the plot stride and one at the end, of the FES of the
histogram at the last multiple of the FES stride. -/
theorem main_plots (hr : FinishedRun w file a config n s0) (o : Dict (OptVal ℝ)) (ho : config.fes = some o) :
    ∃ h, a.sim.hist = some h ∧ (strOption o "plot-filename" = "" → a.sim.plots = []) ∧
      (strOption o "plot-filename" ≠ "" → ∃ ps p, a.sim.plots = ps ++ [p] ∧
        List.Forall₂ (fun t q => IsPlot o a.cfg.ld.pot a.cfg.ld.kt w.figFormats w.terminal (hr.histAt (fesStep o t))
            (strOption o "plot-filename" ++ "_" ++ Nat.repr t) (strOption o "plot-title" ++ "_" ++ Nat.repr t) q)
          (sampledSteps (intOption o "plot-stride").natAbs 0 n) ps ∧
        IsPlot o a.cfg.ld.pot a.cfg.ld.kt w.figFormats w.terminal h (strOption o "plot-filename")
          (strOption o "plot-title") p) := by
  obtain ⟨h, hh, hfes⟩ := main_fes hr o ho
  refine ⟨h, hh, ?_⟩
  have hv := (input_valid 1 one_pos file config hr.parse).fes o ho
  obtain ⟨_, _, _, _, _, _, _, h3, h4, _, _, _, _, hw⟩ := setupOptional_parts w config _ _ _ _ rfl rfl hr.optional
  rw [ho] at h4
  obtain ⟨y, b, hy, hb, hc, hs⟩ := h4
  have hset := setupFes_parts _ _ _ _ _ hb
  obtain ⟨p1, _⟩ := hr.setup.fes _ hc
  obtain ⟨hcc, hhc⟩ := Option.isSome_iff_exists.1 p1
  obtain ⟨_, h0', _, e0, _, _, _, hlen, _⟩ := hr.setup.hist hcc.1 hcc.2 hhc
  rw [hy] at e0
  cases e0
  have hu : y.fesAxes = y.axes := by
    cases hh' : config.histogram with
    | none => rw [hh'] at h3; rw [h3.2] at hy; cases hy
    | some oh =>
      rw [hh'] at h3
      obtain ⟨t, b', _, hb', _, hy'⟩ := h3
      rw [hy] at hy'
      cases hy'
      exact setupHistogram_uniform _ _ _ hb'
  have hname := strOption_eq o _ _ hset.plotFilename
  have hstr := intOption_eq o _ _ hset.plotStride
  have htitle : b.1.plot.title = strOption o "plot-title" := by
    obtain ⟨s, e1, e2⟩ := hset.plotTitle
    rw [e2, strOption_eq o _ _ e1]
  have hneeds : b.1.plot.stride.getD 0 ≠ 0 → b.1.plot.filename.getD "" ≠ "" := by
    intro hne he
    have := (hset.plotNeeds hne).2
    revert this he
    cases b.1.plot.filename with
    | none => intro _ h; cases h
    | some s => intro he h; simp only [Option.getD_some] at he; subst he; cases h
  have h0 : ∃ h x, s0.hist = some h ∧ calculateFes h.counts b.1.kt true = .ok x ∧ s0.fes = some x :=
    ⟨y, b.2, hy, by rw [hset.kt]; exact hset.fes, hs⟩
  obtain ⟨u, hu', hfin⟩ := bind_ok hr.sim
  have e1 := steps_plots w a.cfg s0 b.1 hc h0 hw hneeds n u hu' y hy
  have hF := (final_analysis a.cfg n u a.sim hfin).plots
  simp only [PlotFinal, hc, hh, hfes] at hF
  obtain ⟨g, hg, hbins⟩ := simulate_bins w a.cfg s0 y hy n a.sim hr.sim
  rw [hh] at hg
  cases hg
  have hax : h.fesAxes = y.fesAxes := by
    unfold Histogram.fesAxes Histogram.pointRanges Histogram.shape Histogram.axes
    rw [hbins]
  rw [hax] at hF
  rw [hstr, hname] at e1
  constructor
  · intro he
    have hz : intOption o "plot-stride" = 0 := by
      by_contra hne
      rw [← hstr] at hne
      exact hneeds hne (by rw [hname, he])
    rw [hz] at e1
    have hnil : sampledSteps (Int.natAbs 0) 0 n = [] := by
      rw [List.eq_nil_iff_forall_not_mem]
      intro t ht
      rw [mem_sampledSteps] at ht
      have := Nat.eq_zero_of_zero_dvd ht.2.2
      omega
    rw [hnil] at e1
    unfold fesPlot at hF
    rw [if_pos (by rw [hname, he])] at hF
    rw [← Except.ok.inj hF]
    exact List.forall₂_nil_left_iff.1 e1
  · intro hne
    obtain ⟨p, hp, hp'⟩ := fesPlot_inv _ _ _ _ _ _ hF (by rw [hname]; exact hne)
    rw [hname, htitle] at hp'
    rw [htitle] at e1
    refine ⟨u.plots, p, hp, ?_, addedPlot_spec w o _ hr.constants.2.1 y h b.1 b.2 hset hu hlen hbins _ _ p hp'⟩
    have hmem : ∀ t ∈ sampledSteps (intOption o "plot-stride").natAbs 0 n, t ≤ n := by
      intro t ht
      rw [mem_sampledSteps] at ht
      exact ht.2.1
    revert e1 hmem
    generalize sampledSteps (intOption o "plot-stride").natAbs 0 n = l
    generalize u.plots = ps
    intro e1 hmem
    induction e1 with
    | nil => exact List.Forall₂.nil
    | cons hq _ ih =>
      refine List.Forall₂.cons ?_ (ih (fun t ht => hmem t (List.mem_cons_of_mem _ ht)))
      obtain ⟨k1, k2⟩ := main_fesAt hr o ho y hy _ (hmem _ List.mem_cons_self)
      rw [k2] at hq
      exact addedPlot_spec w o _ hr.constants.2.1 y _ b.1 b.2 hset hu hlen k1 _ _ _ hq

/-- **C98.** Without a terminal a run with plots during the simulation ends only if the name for the plots has no
extension: the number of the step is appended to the name and becomes part of the extension. -/
theorem main_plot_names (hr : FinishedRun w file a config n s0) (o : Dict (OptVal ℝ)) (ho : config.fes = some o)
    (ht : w.terminal = false) (hu : ∀ f ∈ w.figFormats, '_' ∉ f.toList) (hk : intOption o "plot-stride" ≠ 0)
    (hn : (intOption o "plot-stride").natAbs ≤ n) : fileExtension (strOption o "plot-filename").toList = [] := by
  by_cases h0 : strOption o "plot-filename" = ""
  · rw [h0]; rfl
  · obtain ⟨_, _, _, h⟩ := main_plots hr o ho
    obtain ⟨ps, p, _, h1, _⟩ := h h0
    have hmem : (intOption o "plot-stride").natAbs ∈ sampledSteps (intOption o "plot-stride").natAbs 0 n := by
      rw [mem_sampledSteps]
      exact ⟨by omega, hn, dvd_refl _⟩
    obtain ⟨q, _, hq⟩ := forall₂_mem h1 hmem
    have h2 := hq.asked
    cases hs : saveable w.figFormats (strOption o "plot-filename" ++ "_" ++ Nat.repr (intOption o "plot-stride").natAbs)
    · rw [hs] at h2
      have := hq.terminal h2
      rw [ht] at this
      cases this
    · exact (saveable_step _ hu _ _).1 hs

end

end Bdld
