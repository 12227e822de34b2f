import Verif.Model.Headers
import Verif.Props.MainAnalysis
import Verif.Props.Grid

/-
C69: the FIELDS of a file describe its columns. C87: lines of histogram and FES files.
-/

namespace Bdld

open Spec

namespace Spec

/-- The FIELDS of a file have one entry per column. -/
def Describes {V : Type} (fields : List String) (rows : List (List V)) : Prop :=
  ∀ row ∈ rows, row.length = fields.length

/-- Lines of the file of a grid in one dimension. -/
def gridLines1 {V : Type} (x : List V) (f : Nat → V) : List (GridLine V) :=
  x.zipIdx.map (fun a => .row [a.1, f a.2])

/-- Lines of the file of a grid in two dimensions: one block per value of the first coordinate, separated by empty
lines. -/
def gridLines2 {V : Type} (x y : List V) (f : Nat → Nat → V) : List (GridLine V) :=
  [GridLine.blank].intercalate (x.zipIdx.map (fun a => y.zipIdx.map (fun b => .row [a.1, b.1, f a.2 b.2])))

/-- The rows with values of a file. -/
def rowsOf {V : Type} (lines : List (GridLine V)) : List (List V) :=
  lines.filterMap (fun l => match l with
    | .row v => some v
    | _ => none)

end Spec

/-! ### Fields -/

theorem potFields_length (d : Nat) (fs : List String) (h : potFields d = .ok fs) : fs.length = d := by
  unfold potFields at h
  split at h <;> cases h <;> rfl

theorem potFields_total (d : Nat) (h : 1 ≤ d) (h3 : d ≤ 3) : ∃ fs, potFields d = .ok fs := by
  have : d = 1 ∨ d = 2 ∨ d = 3 := by omega
  rcases this with rfl | rfl | rfl <;> exact ⟨_, rfl⟩

theorem trajFields_length (fs : List String) (mom : Bool) (i : Nat) :
    (trajFields fs mom i).length = 1 + fs.length + if mom then fs.length else 0 := by
  cases mom <;> simp [trajFields] <;> omega

theorem deltaFFields_length (n : Nat) : (deltaFFields n).length = n - 1 := by simp [deltaFFields]

theorem distFields_length (n : Nat) : (distFields n).length = n := by simp [distFields]

/-- C69, statistics of birth-death. -/
theorem header_stats_partial (log : BdLog) : Describes statsFields (log.map statsRow) := by
  intro row hr
  obtain ⟨r, _, rfl⟩ := List.mem_map.1 hr
  rfl

/-! ### Trajectories -/

section
variable {R : Type} {w : World R} {file : Option (List Section)} {a : AnySim R} {config : Input ℝ} {n : Nat}
  {s0 : Sim a.d R}

/-- C69, trajectory files of a whole run. -/
theorem header_trajectory_partial (hr : FinishedRun w file a config n s0) (hops : w.bdOps.Lawful)
    (o : Dict (OptVal ℝ)) (ho : config.trajectories = some o) (fs : List String) (hfs : potFields a.d = .ok fs) :
    ∃ x, a.sim.traj = some x ∧ ∀ files, x.files = some files → ∀ i rows, files[i]? = some rows →
      Describes (trajFields fs (flagOption o "momentum") i) rows := by
  obtain ⟨x, hx, hf⟩ := main_trajectories hr hops o ho
  refine ⟨x, hx, fun files hfiles i rows hi => ?_⟩
  rw [hfiles] at hf
  split at hf
  · cases hf
    rw [List.getElem?_map] at hi
    by_cases hlt : i < s0.particles.length
    · rw [List.getElem?_range hlt] at hi
      cases hi
      intro row hrow
      obtain ⟨t, _, rfl⟩ := List.mem_map.1 hrow
      have hl : i < (hr.path t).length := by rw [hr.path_length hops]; exact hlt
      have hp : ((hr.snaps t).pos.getD i []).length = a.d := by
        simp [FinishedRun.snaps, snapshotOf, List.getD_eq_getElem?_getD, List.getElem?_eq_getElem hl]
      have hm : ((hr.snaps t).mom.getD i []).length = a.d := by
        simp [FinishedRun.snaps, snapshotOf, List.getD_eq_getElem?_getD, List.getElem?_eq_getElem hl]
      rw [trajFields_length, potFields_length _ _ hfs, trajRow, List.length_cons, List.length_append, hp]
      split
      · rw [hm]; omega
      · simp; omega
    · rw [List.getElem?_eq_none (by simpa using hlt)] at hi
      cases hi
  · cases hf

/-- C69 is false of the particle distribution: every row of a whole run has one entry more than the FIELDS, the time.
(The uninitialised rows are those of an array with one column per state and one for the time.) -/
theorem header_distribution_extra (hr : FinishedRun w file a config n s0) (hops : w.bdOps.Lawful)
    (o : Dict (OptVal ℝ)) (ho : config.particleDistribution = some o) (states : List (List (ℝ × ℝ)))
    (hst : stateRanges o = .ok states) (hd : ∀ s ∈ states, s.length = a.d) (hw : 0 < s0.particles.length)
    (hg : ∀ i, (w.emptyCounts i).length = states.length + 1) :
    ∃ x, a.sim.dist = some x ∧ ∀ row ∈ x.file, row.length = (distFields states.length).length + 1 := by
  obtain ⟨x, hx, hf⟩ := main_distribution hr hops o ho states hst hd hw
  refine ⟨x, hx, fun row hrow => ?_⟩
  rw [hf] at hrow
  rw [distFields_length]
  have hrow' : ∀ t : Nat, ((t : ℝ) :: walkersIn states (hr.path t)).length = states.length + 1 := by
    intro t; simp [walkersIn]
  unfold seriesFile at hrow
  split at hrow
  · split at hrow
    · rw [List.mem_singleton] at hrow
      rw [hrow, hrow']
    · rcases List.mem_append.1 hrow with h | h
      · obtain ⟨t, _, rfl⟩ := List.mem_map.1 h
        exact hrow' t
      · split at h
        · split at h
          · obtain ⟨t, _, rfl⟩ := List.mem_map.1 h
            exact hg t
          · obtain ⟨t, _, rfl⟩ := List.mem_map.1 h
            exact hrow' t
        · cases h
  · cases hrow

end

/-! ### Time series -/

theorem mapM_length_ok {α β ε : Type} (f : α → Except ε β) (l : List α) (y : List β) (h : l.mapM f = .ok y) :
    y.length = l.length := by
  induction l generalizing y with
  | nil => cases h; rfl
  | cons a l ih =>
    rw [List.mapM_cons] at h
    obtain ⟨b, _, h⟩ := bind_ok h
    obtain ⟨z, hz, h⟩ := bind_ok h
    cases h
    simp [ih z hz]

/-- One value of delta F for every state but the first. -/
theorem calculateDeltaF_length (fes : Nd (WithTop ℝ)) (kt : ℝ) (masks : List (List Bool)) (v : List ℝ)
    (h : calculateDeltaF fes kt masks = .ok v) : v.length = masks.length - 1 := by
  simp only [calculateDeltaF] at h
  obtain ⟨p, hp, h⟩ := bind_ok h
  cases h
  simp [mapM_length_ok _ _ _ hp]

/-- One number of particles for every state. -/
theorem countParticles_length (d : Nat) (pos : List (List ℝ)) (states : List (List (ℝ × ℝ))) (v : List Nat)
    (h : countParticles d pos states = .ok v) : v.length = states.length := by
  unfold countParticles at h
  split at h
  · split at h
    · rename_i hs
      cases h
      rw [hs]
      rfl
    · cases h
  · obtain ⟨p, hp, h⟩ := bind_ok h
    cases h
    rw [List.length_map]
    exact mapM_length_ok _ _ _ hp

private theorem pySlice_mem {α : Type} (l y : List α) (lo : Int) (hi : Option Int) (k : Int)
    (h : pySlice l lo hi k = .ok y) : ∀ x ∈ y, x ∈ l := by
  unfold pySlice at h
  split at h
  · cases h
  · cases h
    intro x hx
    obtain ⟨i, _, hi⟩ := List.mem_filterMap.1 hx
    exact List.mem_of_getElem? hi

private theorem getValidData_mem {α : Type} (l y : List α) (a b c d : Int) (h : getValidData l a b c d = .ok y) :
    ∀ x ∈ y, x ∈ l := by
  simp only [getValidData] at h
  split at h
  · cases h; simp
  · split at h
    · cases h
    · split at h
      · cases h; exact fun x hx => hx
      · split at h
        · cases h
        · split at h <;> exact pySlice_mem _ _ _ _ _ h

/-- All rows have the given number of columns. -/
private def SeriesWide {F : Type} (m : Nat) (s : SeriesState F) : Prop :=
  (∀ row ∈ s.file, row.length = m) ∧
    match s.buf with
    | .table rows => ∀ row ∈ rows, row.length = m
    | .single row => row.length = m

private theorem write_wide {F : Type} (c : SeriesCfg F) (m step : Nat) (s s' : SeriesState F) (hs : SeriesWide m s)
    (h : s.write c step = .ok s') : SeriesWide m s' := by
  unfold SeriesState.write at h
  obtain ⟨h1, h2⟩ := hs
  split at h
  · split at h
    · rename_i rows hb
      rw [hb] at h2
      obtain ⟨y, hy, h⟩ := bind_ok h
      cases h
      refine ⟨fun row hr => ?_, by simpa [hb] using h2⟩
      rcases List.mem_append.1 hr with hr | hr
      · exact h1 row hr
      · exact h2 row (getValidData_mem _ _ _ _ _ _ hy row hr)
    · rename_i r hb
      rw [hb] at h2
      cases h
      refine ⟨fun row hr => ?_, by simpa [hb] using h2⟩
      rcases List.mem_append.1 hr with hr | hr
      · exact h1 row hr
      · rw [List.mem_singleton.1 hr]; exact h2
  · cases h; exact ⟨h1, h2⟩

private theorem pySetItem_mem {α : Type} (l l' : List α) (i : Int) (v : α) (h : pySetItem l i v = .ok l') :
    ∀ x ∈ l', x ∈ l ∨ x = v := by
  unfold pySetItem at h
  split at h
  · cases h; intro x hx; exact List.mem_or_eq_of_mem_set hx
  · split at h
    · cases h; intro x hx; exact List.mem_or_eq_of_mem_set hx
    · cases h

private theorem run_wide {F : Type} (c : SeriesCfg F) (m step : Nat) (s s' : SeriesState F) (vals : List F)
    (hv : vals.length + 1 = m) (hs : SeriesWide m s) (h : s.run c step vals = .ok s') : SeriesWide m s' := by
  unfold SeriesState.run at h
  obtain ⟨u, hu, h⟩ := bind_ok h
  have hw : SeriesWide m u := by
    unfold SeriesState.store at hu
    split at hu
    · split at hu
      · cases hu
      · simp only at hu
        split at hu
        · rename_i rows hb
          obtain ⟨h1, h2⟩ := hs
          rw [hb] at h2
          cases hr : pySetItem rows (pyDiv (pyMod step c.writeStride) c.stride - 1) (c.timeCol step :: vals) with
          | error e => rw [hr] at hu; cases hu
          | ok r =>
            rw [hr] at hu
            cases hu
            refine ⟨h1, fun row hrow => ?_⟩
            rcases pySetItem_mem _ _ _ _ hr row hrow with h | h
            · exact h2 row h
            · rw [h, List.length_cons, hv]
        · cases hu
    · cases hu; exact hs
  split at h
  · exact write_wide c m step u s' hw h
  · cases h; exact hw

/-- All rows of the file of a time series with `k` values have `k + 1` columns. -/
theorem series_columns {F : Type} (c : SeriesCfg F) (k : Nat) (vals : Nat → List F) (valsEnd : List F)
    (garbage : Nat → List F) (n : Nat) (s : SeriesState F) (hg : ∀ i, (garbage i).length = k + 1)
    (hv : ∀ t, (vals t).length = k) (he : valsEnd.length = k)
    (h : SeriesState.simulate c vals valsEnd n (SeriesState.init c garbage) = .ok s) :
    ∀ row ∈ s.file, row.length = k + 1 := by
  have hwide : ∀ n u, SeriesState.steps c vals n (SeriesState.init c garbage) = .ok u → SeriesWide (k + 1) u := by
    intro n
    induction n with
    | zero =>
      intro u hu
      cases hu
      refine ⟨by simp [SeriesState.init], ?_⟩
      unfold SeriesState.init
      by_cases h0 : c.stride = 0
      · simp [h0, hg]
      · simp only [h0, if_false]
        intro row hr
        obtain ⟨i, _, rfl⟩ := List.mem_map.1 hr
        exact hg i
    | succ n ih =>
      intro u hu
      rw [SeriesState.steps] at hu
      obtain ⟨z, hz, hu⟩ := bind_ok hu
      exact run_wide c _ _ z u _ (by rw [hv]) (ih z hz) hu
  unfold SeriesState.simulate at h
  obtain ⟨u, hu, h⟩ := bind_ok h
  have hw := hwide n u hu
  unfold SeriesState.finalRun at h
  split at h
  · refine (write_wide c (k + 1) n _ s ?_ h).1
    exact ⟨hw.1, by simp [he]⟩
  · exact (write_wide c (k + 1) n _ s hw h).1

/-- C69 is false: the FIELDS of the delta F file lack the time; with two states there is one field and every row has
two values. -/
theorem header_deltaF_false : ¬ ∀ (c : SeriesCfg Nat) (masks : List (List Bool)) (vals : Nat → List Nat) (n : Nat)
    (s : SeriesState Nat), (∀ t, (vals t).length = masks.length - 1) →
    SeriesState.simulate c vals (vals n) n (SeriesState.init c (fun _ => List.replicate masks.length 0)) = .ok s →
    Describes (deltaFFields masks.length) s.file := by
  intro h
  have := h ⟨0, 0, true, fun t => t⟩ [[true, false], [false, true]] (fun _ => [7]) 3
    ⟨.single [3, 7], 0, [[3, 7]]⟩ (fun _ => rfl) rfl [3, 7] (by simp)
  revert this
  decide

/-- C69 is false: the FIELDS of the particle distribution file lack the time. -/
theorem header_distribution_false : ¬ ∀ (c : SeriesCfg Nat) (nStates : Nat) (vals : Nat → List Nat) (n : Nat)
    (s : SeriesState Nat), (∀ t, (vals t).length = nStates) →
    SeriesState.simulate c vals (vals n) n (SeriesState.init c (fun _ => List.replicate (nStates + 1) 0)) = .ok s →
    Describes (distFields nStates) s.file := by
  intro h
  have := h ⟨0, 0, true, fun t => t⟩ 2 (fun _ => [7, 8]) 3 ⟨.single [3, 7, 8], 0, [[3, 7, 8]]⟩ (fun _ => rfl) rfl
    [3, 7, 8] (by simp)
  revert this
  decide

/-- With one state there are no fields at all for delta F, and no header is written. -/
example (constants : List (String × String)) : initHeader (deltaFFields 1) constants = [] := rfl

example : deltaFFields 3 = ["delta_f.1-2", "delta_f.1-3"] := by decide
example : trajFields ["x", "y"] true 4 = ["time", "pos_x.4", "pos_y.4", "mom_x.4", "mom_y.4"] := by decide
example : plumedHeader ["x", "fes"] [("x_min", "0"), ("x_max", "1")] =
    ["#! FIELDS x fes", "#! SET x_min 0", "#! SET x_max 1"] := by decide

/-! ### Histogram and FES files -/

private theorem zipWith_flatMap {α β γ δ ε : Type} (g : γ → δ → ε) (A : α → List γ) (B : β → List δ) (l : List α)
    (l' : List β) (hl : l.length = l'.length) (hAB : ∀ a b, (A a).length = (B b).length) :
    List.zipWith g (l.flatMap A) (l'.flatMap B) =
      (List.zipWith (fun a b => List.zipWith g (A a) (B b)) l l').flatten := by
  induction l generalizing l' with
  | nil => simp
  | cons a l ih =>
    cases l' with
    | nil => simp at hl
    | cons b l' =>
      rw [List.flatMap_cons, List.flatMap_cons, List.zipWith_append (hAB a b), ih l' (by simpa using hl)]
      simp

private theorem flatten_slice {α : Type} (L : List (List α)) (m i : Nat) (hm : ∀ l ∈ L, l.length = m)
    (hi : i < L.length) : (L.flatten.drop (i * m)).take m = L[i] := by
  induction L generalizing i with
  | nil => simp at hi
  | cons l L ih =>
    have hl : l.length = m := hm l List.mem_cons_self
    cases i with
    | zero =>
      simp only [Nat.zero_mul, List.drop_zero, List.flatten_cons, List.getElem_cons_zero]
      rw [← hl, List.take_left]
    | succ i =>
      rw [List.flatten_cons, Nat.succ_mul, Nat.add_comm, ← List.drop_drop]
      have : (l ++ L.flatten).drop m = L.flatten := by rw [← hl, List.drop_left]
      rw [this, ih i (fun x hx => hm x (List.mem_cons_of_mem _ hx)) (by simpa using hi)]
      simp

private theorem intercalate_slices {α : Type} (sep : List α) (L : List (List α)) (hL : L ≠ []) :
    (List.range (L.length - 1)).flatMap (fun i => L.getD i [] ++ sep) ++ L.getD (L.length - 1) [] =
      sep.intercalate L := by
  induction L with
  | nil => exact absurd rfl hL
  | cons l L ih =>
    cases L with
    | nil => simp [List.intercalate]
    | cons l' L =>
      have := ih (by simp)
      have h1 : sep.intercalate (l :: l' :: L) = l ++ (sep ++ sep.intercalate (l' :: L)) := by
        simp [List.intercalate]
      rw [h1, ← this]
      simp only [List.length_cons, Nat.add_sub_cancel]
      rw [List.range_succ_eq_map, List.flatMap_cons, List.flatMap_map]
      simp

/-- C87 in one dimension: one line per point with coordinate and value. -/
theorem gridFile_one {V : Type} [Inhabited V] (x : List V) (f : List Nat → V) (nPoints : List Nat)
    (header : List String) :
    gridFile [x] (Nd.ofFn [x.length] f).flat nPoints header =
      .ok (some (header.map .header ++ gridLines1 x (fun i => f [i]))) := by
  have hdata : (Nd.ofFn [x.length] f).flat = (List.range x.length).map (fun i => f [i]) := by
    simp [Nd.ofFn, indices, List.flatMap_def, List.map_map]
    rw [← List.flatMap_def]
    induction (List.range x.length) with
    | nil => rfl
    | cons a l ih => simp [ih]
  simp only [gridFile]
  rw [if_pos (by rw [hdata]; simp), hdata]
  congr 3
  unfold gridLines1
  rw [List.zipIdx_eq_zip_range', ← List.range_eq_range', List.zipWith_map_right, List.map_zipWith, List.zip,
    List.map_zipWith]

/-- C87 in two dimensions: one line per point with coordinates and value, in blocks of constant first coordinate. -/
theorem gridFile_two {V : Type} [Inhabited V] (x y : List V) (hx : x ≠ []) (hy : y ≠ []) (f : List Nat → V)
    (header : List String) :
    gridFile [x, y] (Nd.ofFn [x.length, y.length] f).flat [x.length, y.length] header =
      .ok (some (header.map .header ++ gridLines2 x y (fun i j => f [i, j]))) := by
  have hdata : (Nd.ofFn [x.length, y.length] f).flat =
      (List.range x.length).flatMap (fun i => (List.range y.length).map (fun j => f [i, j])) := by
    have h1 : indices [y.length] = (List.range y.length).map (fun j => [j]) := by
      simp only [indices, List.map_cons, List.map_nil]
      induction (List.range y.length) with
      | nil => rfl
      | cons a l ih => simp [ih]
    simp only [Nd.ofFn]
    rw [indices, h1, List.map_flatMap]
    simp [List.map_map, Function.comp_def]
  have hpts : pointsOfAxes [x, y] = .ok (x.flatMap (fun a => y.map (fun b => [a, b]))) := by
    rw [points_rowMajor_partial [x, y] (Or.inr rfl)]
    congr 1
    simp only [Spec.rowMajor, List.map_cons, List.map_nil]
    congr 1
    funext a
    clear hdata hy
    induction y with
    | nil => rfl
    | cons b l ih => simpa using ih
  -- the rows
  let L : List (List (List V)) := List.zipWith (fun a i => List.zipWith (fun b j => [a, b, f [i, j]]) y
    (List.range y.length)) x (List.range x.length)
  have hrows : List.zipWith (fun q v => q ++ [v]) (x.flatMap (fun a => y.map (fun b => [a, b])))
      ((List.range x.length).flatMap (fun i => (List.range y.length).map (fun j => f [i, j]))) = L.flatten := by
    rw [zipWith_flatMap _ _ _ _ _ (by simp) (by intros; simp)]
    congr 1
    congr 1
    funext a i
    rw [List.zipWith_map]
    simp
  have hLlen : L.length = x.length := by simp [L]
  have hLm : ∀ l ∈ L, l.length = y.length := by
    intro l hl
    obtain ⟨k, hk, rfl⟩ := List.getElem_of_mem hl
    simp [L]
  have hflen : L.flatten.length = x.length * y.length := by
    rw [← hrows]; simp [List.length_flatMap]
  have hne : L.flatten ≠ [] := by
    intro h
    rw [h] at hflen
    simp only [List.length_nil] at hflen
    rcases Nat.mul_eq_zero.1 hflen.symm with h | h
    · exact hx (List.length_eq_zero_iff.1 h)
    · exact hy (List.length_eq_zero_iff.1 h)
  have hdl : ((List.range x.length).flatMap (fun i => (List.range y.length).map (fun j => f [i, j]))).length =
      x.length * y.length := by simp [List.length_flatMap]
  have hpl : (x.flatMap (fun a => y.map (fun b => [a, b]))).length = x.length * y.length := by
    simp [List.length_flatMap]
  simp only [gridFile, hpts, hdata, ok_bind, hdl, hpl, hrows]
  rw [if_neg (by simp)]
  simp only [pure_eq_ok, slicedLines]
  rw [if_neg hne, if_neg (by rw [hflen]; simp)]
  simp only [ok_bind]
  congr 3
  -- slices
  have hsl : ∀ i, i < x.length → ((L.flatten.drop (i * y.length)).take y.length).map GridLine.row =
      (L.map (fun l => l.map GridLine.row)).getD i [] := by
    intro i hi
    rw [flatten_slice L y.length i hLm (by rw [hLlen]; exact hi)]
    simp [List.getD_eq_getElem?_getD, List.getElem?_eq_getElem (show i < L.length by rw [hLlen]; exact hi)]
  have hxp : 0 < x.length := List.length_pos_iff.2 hx
  rw [hsl _ (by omega)]
  have h1 : (List.range (x.length - 1)).flatMap (fun i =>
      ((L.flatten.drop (i * y.length)).take y.length).map GridLine.row ++ [GridLine.blank]) =
      (List.range (x.length - 1)).flatMap (fun i => (L.map (fun l => l.map GridLine.row)).getD i [] ++
        [GridLine.blank]) := by
    rw [List.flatMap_def, List.flatMap_def]
    congr 1
    refine List.map_congr_left (fun i hi => ?_)
    rw [hsl i (by have := List.mem_range.1 hi; omega)]
  rw [h1]
  have h2 := intercalate_slices [GridLine.blank] (L.map (fun l => l.map GridLine.row)) (by
    intro h
    have := congrArg List.length h
    rw [List.length_map, hLlen, List.length_nil] at this
    omega)
  rw [List.length_map, hLlen] at h2
  rw [h2]
  unfold gridLines2
  congr 1
  have hzip : ∀ l : List V, l.zipIdx = List.zipWith Prod.mk l (List.range l.length) := by
    intro l
    rw [List.zipIdx_eq_zip_range', ← List.range_eq_range', List.zip]
  rw [hzip x, hzip y]
  simp only [L, List.map_zipWith]

/-- C87 is false in three dimensions: there is no file. -/
theorem gridFile_three_false {V : Type} [Inhabited V] (x y z : List V) (data : List V) (nPoints : List Nat)
    (header : List String) : gridFile [x, y, z] data nPoints header = .ok none := rfl

/-- C69, histogram and FES files: whatever is written, every row has one entry per dimension and one for the value. -/
theorem header_grid_partial {V : Type} [Inhabited V] (axes : List (List V)) (data : List V) (nPoints : List Nat)
    (header : List String) (lines : List (GridLine V)) (fs : List String) (hfs : potFields axes.length = .ok fs)
    (h : gridFile axes data nPoints header = .ok (some lines)) :
    Describes (histFields fs) (rowsOf lines) ∧ Describes (fesFields fs) (rowsOf lines) := by
  have hl := potFields_length _ _ hfs
  have key : ∀ row ∈ rowsOf lines, row.length = axes.length + 1 := by
    intro row hrow
    obtain ⟨l, hmem, hl⟩ := List.mem_filterMap.1 hrow
    have hlr : l = .row row := by
      split at hl
      · cases hl; rfl
      · cases hl
    subst hlr
    unfold gridFile at h
    split at h
    · split at h
      · cases h
        rcases List.mem_append.1 hmem with hm | hm
        · obtain ⟨_, _, h⟩ := List.mem_map.1 hm; cases h
        · obtain ⟨r, hr, h⟩ := List.mem_map.1 hm
          cases h
          obtain ⟨k, hk, rfl⟩ := List.getElem_of_mem hr
          simp
      · cases h
    · rename_i x y
      obtain ⟨p, hp, h⟩ := bind_ok h
      rw [points_rowMajor_partial [x, y] (Or.inr rfl)] at hp
      cases hp
      split at h
      · cases h
      · simp only [pure_eq_ok] at h
        obtain ⟨ls, hls, h⟩ := bind_ok h
        cases h
        have hrows : ∀ r ∈ List.zipWith (fun q v => q ++ [v]) (Spec.rowMajor [x, y]) data, r.length = 3 := by
          intro r hr
          obtain ⟨k, hk, rfl⟩ := List.getElem_of_mem hr
          simp only [List.getElem_zipWith, List.length_append, List.length_singleton]
          have hq : ∀ q ∈ Spec.rowMajor [x, y], q.length = 2 := by
            intro q hq
            simp only [Spec.rowMajor, List.mem_flatMap, List.mem_map] at hq
            obtain ⟨a, _, z, ⟨b, _, c, hc, rfl⟩, rfl⟩ := hq
            simp at hc
            simp [hc]
          rw [hq _ (List.getElem_mem _)]
        rcases List.mem_append.1 hmem with hm | hm
        · obtain ⟨_, _, h⟩ := List.mem_map.1 hm; cases h
        · unfold slicedLines at hls
          split at hls
          · split at hls
            · cases hls
            · split at hls
              · cases hls
              · cases hls
                have hsl : ∀ i m, GridLine.row row ∈ (((List.zipWith (fun q v => q ++ [v]) (Spec.rowMajor [x, y])
                    data).drop (i * m)).take m).map GridLine.row → row.length = 3 := by
                  intro i m hmm
                  obtain ⟨r, hr, h⟩ := List.mem_map.1 hmm
                  cases h
                  exact hrows _ (List.mem_of_mem_drop (List.mem_of_mem_take hr))
                rcases List.mem_append.1 hm with hm | hm
                · obtain ⟨i, _, hm⟩ := List.mem_flatMap.1 hm
                  rcases List.mem_append.1 hm with hm | hm
                  · exact hsl _ _ hm
                  · simp at hm
                · exact hsl _ _ hm
          · cases hls
    · cases h
  constructor <;> intro row hrow <;> rw [key row hrow, ← hl] <;> simp [histFields, fesFields]

/-- Example: a grid with two times three points. -/
example : gridFile [[0, 1], [5, 6, 7]] [10, 11, 12, 13, 14, 15] [2, 3] ["#! FIELDS x y fes"] =
    .ok (some [.header "#! FIELDS x y fes", .row [0, 5, 10], .row [0, 6, 11], .row [0, 7, 12], .blank,
      .row [1, 5, 13], .row [1, 6, 14], .row [1, 7, 15]]) := by decide +kernel

end Bdld
