import Verif.Model.Disk
import Verif.Props.Files
import Verif.Props.LongerRun

/-
C151: the files on disk after a run.
-/

namespace Bdld

open Spec

noncomputable section

variable {R : Type} {d : Nat}

/-! ### One call of an action -/

/-- What an action does to the lists of written rows, grids and plots. -/
structure Spec.FileStep (c : SimCfg d) (s s' : Sim d R) (final : Bool) (step : Nat) (a : ActName) : Prop where
  rows : ∀ o, s.fileRows o <+: s'.fileRows o
  quiet : ∀ o, o.owner ≠ a ∨ opensFile c s s' final step o = false → s'.fileRows o = s.fileRows o
  grows : Grows s s'

theorem rows_same {s s' : Sim d R} (h1 : s'.bd = s.bd) (h2 : s'.traj = s.traj) (h3 : s'.deltaF = s.deltaF)
    (h4 : s'.dist = s.dist) (o : OutFile) : s'.fileRows o = s.fileRows o := by
  cases o <;> simp only [Sim.fileRows, h1, h2, h3, h4]

theorem fileStep_same {c : SimCfg d} {s s' : Sim d R} {final : Bool} {step : Nat} {a : ActName} (h1 : s'.bd = s.bd)
    (h2 : s'.traj = s.traj) (h3 : s'.deltaF = s.deltaF) (h4 : s'.dist = s.dist) (h5 : Grows s s') :
    FileStep c s s' final step a where
  rows o := by rw [rows_same h1 h2 h3 h4 o]
  quiet o _ := rows_same h1 h2 h3 h4 o
  grows := h5

theorem mapM_ok_forall₂ {α β : Type} {f : α → Except PyErr β} : ∀ {l : List α} {r : List β}, l.mapM f = .ok r →
    List.Forall₂ (fun a b => f a = .ok b) l r
  | [], r, h => by
    rw [List.mapM_nil] at h
    cases h
    exact .nil
  | a :: l, r, h => by
    rw [List.mapM_cons] at h
    obtain ⟨b, hb, h⟩ := bind_ok h
    obtain ⟨bs, hbs, h⟩ := bind_ok h
    cases h
    exact .cons hb (mapM_ok_forall₂ hbs)

/-- Rows are appended by `TrajectoryAction.write`. -/
theorem trajWrite_prefix {F : Type} {t : TrajCfg F} {x y : TrajState F} {step : Nat} (h : x.write t step = .ok y) (i : Nat) :
    (x.files.getD []).getD i [] <+: (y.files.getD []).getD i [] := by
  unfold TrajState.write at h
  rcases hf : x.files with _ | l
  · simp only [hf] at h
    cases h
    rw [hf]
  rcases l with _ | ⟨f, fs⟩
  · simp only [hf] at h
    cases h
    rw [hf]
  simp only [hf] at h
  obtain ⟨a1, _, h⟩ := bind_ok h
  obtain ⟨a2, _, h⟩ := bind_ok h
  obtain ⟨a3, _, h⟩ := bind_ok h
  obtain ⟨l, hl, h⟩ := bind_ok h
  cases h
  simp only [Option.getD_some]
  have hF := mapM_ok_forall₂ hl
  by_cases hi : i < (f :: fs).length
  · have hlen := hF.length_eq
    have hi2 : i < l.length := by rw [← hlen]; simpa using hi
    have := (List.forall₂_iff_get.1 hF).2 i (by simpa using hi) hi2
    simp only [List.get_eq_getElem, List.getElem_zipIdx] at this
    obtain ⟨r, _, hr⟩ := bind_ok this
    rw [List.getD_eq_getElem?_getD, List.getD_eq_getElem?_getD, List.getElem?_eq_getElem hi, List.getElem?_eq_getElem hi2]
    simp only [Option.getD_some]
    rw [← Except.ok.inj hr]
    exact List.prefix_append _ _
  · rw [List.getD_eq_getElem?_getD, List.getElem?_eq_none (by omega)]
    exact List.nil_prefix

theorem seriesWrite_prefix {F : Type} {c : SeriesCfg F} {x y : SeriesState F} {step : Nat} (h : x.write c step = .ok y) :
    x.file <+: y.file := by
  unfold SeriesState.write at h
  split at h
  · split at h
    · obtain ⟨r, _, h⟩ := bind_ok h
      cases h
      exact List.prefix_append _ _
    · cases h
      exact List.prefix_append _ _
  · cases h
    exact List.prefix_rfl

theorem seriesStore_file {F : Type} {c : SeriesCfg F} {x y : SeriesState F} {step : Nat} {vals : List F}
    (h : x.store c step vals = .ok y) : y.file = x.file := by
  unfold SeriesState.store at h
  split at h
  · split at h
    · cases h
    · split at h
      · rename_i rows _
        rcases hp : pySetItem rows (pyDiv (pyMod step c.writeStride) c.stride - 1) (c.timeCol step :: vals) with e | z
        · simp only [hp, Except.map] at h; cases h
        · simp only [hp, Except.map] at h; cases h; rfl
      · cases h
  · cases h; rfl

theorem seriesRun_rows {F : Type} {c : SeriesCfg F} {x y : SeriesState F} {step : Nat} {vals : List F}
    (h : x.run c step vals = .ok y) : x.file <+: y.file ∧ (writesNow c.writeStride false step = false → y.file = x.file) := by
  obtain ⟨z, hz, h⟩ := bind_ok h
  have e := seriesStore_file hz
  split at h
  · rename_i hw
    refine ⟨by rw [← e]; exact seriesWrite_prefix h, fun hq => ?_⟩
    have hm : (step : Int) % c.writeStride = 0 := by
      have := hw.2
      unfold pyMod at this
      rwa [Int.fmod_eq_emod_of_nonneg _ (by positivity)] at this
    have hm' : step % c.writeStride = 0 := by exact_mod_cast hm
    have hw1 : c.writeStride ≠ 0 := hw.1
    simp [writesNow, hw1, hm'] at hq
  · cases h
    exact ⟨by rw [e], fun _ => e⟩

theorem seriesFinal_prefix {F : Type} {c : SeriesCfg F} {x y : SeriesState F} {step : Nat} {vals : List F}
    (h : x.finalRun c step vals = .ok y) : x.file <+: y.file := by
  unfold SeriesState.finalRun at h
  split at h
  · exact seriesWrite_prefix (x := { x with buf := .single (c.timeCol step :: vals) }) h
  · exact seriesWrite_prefix h

theorem trajRun_rows {F : Type} {t : TrajCfg F} {x y : TrajState F} {step : Nat} {snap : Snapshot F}
    (h : x.run t step snap = .ok y) : (∀ i, (x.files.getD []).getD i [] <+: (y.files.getD []).getD i []) ∧
      (writesNow t.writeStride false step = false → y.files = x.files) := by
  unfold TrajState.run at h
  by_cases h0 : t.writeStride = 0
  · rw [if_pos h0] at h; cases h
  rw [if_neg h0] at h
  obtain ⟨times, _, h⟩ := bind_ok h
  obtain ⟨row, _, h⟩ := bind_ok h
  obtain ⟨pos, _, h⟩ := bind_ok h
  obtain ⟨mom, _, h⟩ := bind_ok h
  simp only at h
  by_cases hm : pyMod step t.writeStride = 0
  · rw [if_pos hm] at h
    refine ⟨fun i => trajWrite_prefix (x := { x with times := times, positions := pos, momentum := mom }) h i, fun hq => ?_⟩
    have hm1 : (step : Int) % t.writeStride = 0 := by
      unfold pyMod at hm
      rwa [Int.fmod_eq_emod_of_nonneg _ (by positivity)] at hm
    have hm' : step % t.writeStride = 0 := by exact_mod_cast hm1
    simp [writesNow, h0, hm'] at hq
  · rw [if_neg hm] at h
    cases h
    exact ⟨fun i => List.prefix_rfl, fun _ => rfl⟩

theorem newPart_empty {α : Type} {l l' : List α} (h : l <+: l') (he : (newPart l l').isEmpty = true) : l' = l := by
  obtain ⟨t, rfl⟩ := h
  unfold newPart at he
  rw [List.drop_left] at he
  rw [List.isEmpty_iff.1 he, List.append_nil]

/-- Only the rows of one kind of files change. -/
theorem fileStep_one {c : SimCfg d} {s s' : Sim d R} {final : Bool} {step : Nat} {a : ActName}
    (h : ∀ o, o.owner ≠ a → s'.fileRows o = s.fileRows o)
    (h' : ∀ o, o.owner = a → s.fileRows o <+: s'.fileRows o ∧
      (opensFile c s s' final step o = false → s'.fileRows o = s.fileRows o))
    (h5 : Grows s s') : FileStep c s s' final step a where
  rows o := by
    by_cases ho : o.owner = a
    · exact (h' o ho).1
    · rw [h o ho]
  quiet o hq := by
    by_cases ho : o.owner = a
    · exact (h' o ho).2 (hq.resolve_left (fun hn => hn ho))
    · exact h o ho
  grows := h5

theorem runAction_files (w : World R) (c : SimCfg d) (s s' : Sim d R) (a : ActName) (step : Nat)
    (h : runAction w c s a step = .ok s') : FileStep c s s' false step a := by
  have hg := runAction_grows w c s s' a step h
  cases a <;> simp only [runAction] at h
  case ld =>
    obtain ⟨x, _, h⟩ := bind_ok h
    cases h
    exact fileStep_same rfl rfl rfl rfl hg
  case birthDeath =>
    split at h
    · rename_i b x hb hx
      obtain ⟨y, hy, h⟩ := bind_ok h
      cases h
      refine fileStep_one (fun o ho => by cases o <;> first | rfl | exact absurd rfl ho) (fun o ho => ?_) hg
      cases o <;> try cases ho
      have hp : s.fileRows .stats <+: Sim.fileRows { s with particles := y.1.particles, bd := some ⟨y.1.rng, y.1.stats, y.2⟩ } .stats := by
        simp only [Sim.fileRows, hx]
        refine List.IsPrefix.map _ ?_
        unfold bdRun at hy
        by_cases h0 : b.stride = 0
        · rw [if_pos h0] at hy; cases hy
        rw [if_neg h0] at hy
        obtain ⟨st, _, hy⟩ := bind_ok hy
        cases hy
        simp only
        split
        · exact List.prefix_append _ _
        · exact List.prefix_rfl
      exact ⟨hp, fun hq => newPart_empty hp (by simpa [opensFile] using hq)⟩
    · cases h; exact fileStep_same rfl rfl rfl rfl hg
  case trajectories =>
    split at h
    · rename_i t x ht hx
      obtain ⟨y, hy, h⟩ := bind_ok h
      cases h
      obtain ⟨h1, h2⟩ := trajRun_rows hy
      refine fileStep_one (fun o ho => by cases o <;> first | rfl | exact absurd rfl ho) (fun o ho => ?_) hg
      cases o <;> try cases ho
      simp only [Sim.fileRows, hx, opensFile, ht]
      exact ⟨(h1 _).map _, fun hq => by rw [h2 hq]⟩
    · cases h; exact fileStep_same rfl rfl rfl rfl hg
  case histogram =>
    split at h
    · obtain ⟨x, _, h⟩ := bind_ok h
      cases h
      exact fileStep_same rfl rfl rfl rfl hg
    · cases h; exact fileStep_same rfl rfl rfl rfl hg
  case fes =>
    split at h
    · obtain ⟨x, _, h⟩ := bind_ok h
      obtain ⟨p, hp, h⟩ := bind_ok h
      cases h
      exact fileStep_same rfl rfl rfl rfl hg
    · cases h; exact fileStep_same rfl rfl rfl rfl hg
  case deltaF =>
    split at h
    · rename_i f x y hf hx hy
      obtain ⟨v, _, h⟩ := bind_ok h
      obtain ⟨z, hz, h⟩ := bind_ok h
      cases h
      obtain ⟨h1, h2⟩ := seriesRun_rows hz
      refine fileStep_one (fun o ho => by cases o <;> first | rfl | exact absurd rfl ho) (fun o ho => ?_) hg
      cases o <;> try cases ho
      simp only [Sim.fileRows, hy, opensFile, hf]
      exact ⟨h1.map _, fun hq => by rw [h2 hq]⟩
    · cases h; exact fileStep_same rfl rfl rfl rfl hg
  case particleDistribution =>
    split at h
    · rename_i f y hf hy
      obtain ⟨v, _, h⟩ := bind_ok h
      obtain ⟨z, hz, h⟩ := bind_ok h
      cases h
      obtain ⟨h1, h2⟩ := seriesRun_rows hz
      refine fileStep_one (fun o ho => by cases o <;> first | rfl | exact absurd rfl ho) (fun o ho => ?_) hg
      cases o <;> try cases ho
      simp only [Sim.fileRows, hy, opensFile, hf]
      exact ⟨h1.map _, fun hq => by rw [h2 hq]⟩
    · cases h; exact fileStep_same rfl rfl rfl rfl hg

theorem finalAction_files (c : SimCfg d) (s s' : Sim d R) (a : ActName) (step : Nat)
    (h : finalAction c s a step = .ok s') : FileStep c s s' true step a := by
  have hg0 : Grows s s := .refl s
  cases a <;> simp only [finalAction] at h
  case ld => cases h; exact fileStep_same rfl rfl rfl rfl hg0
  case birthDeath =>
    split at h
    · rename_i b x hb hx
      cases h
      refine fileStep_one (fun o ho => by cases o <;> first | rfl | exact absurd rfl ho) (fun o ho => ?_)
        ⟨List.prefix_rfl, List.prefix_rfl, List.prefix_rfl⟩
      cases o <;> try cases ho
      have hp : x.log <+: (bdFinal b.statsStride (⟨s.particles, x.rng, x.stats⟩, x.log) step).2 := by
        unfold bdFinal
        split
        · exact List.prefix_rfl
        · exact List.prefix_append _ _
      have hp' : s.fileRows .stats <+: Sim.fileRows { s with bd := some ⟨(bdFinal b.statsStride (⟨s.particles, x.rng, x.stats⟩, x.log) step).1.rng, (bdFinal b.statsStride (⟨s.particles, x.rng, x.stats⟩, x.log) step).1.stats, (bdFinal b.statsStride (⟨s.particles, x.rng, x.stats⟩, x.log) step).2⟩ } .stats := by
        simp only [Sim.fileRows, hx]
        exact hp.map _
      exact ⟨hp', fun hq => newPart_empty hp' (by simpa [opensFile] using hq)⟩
    · cases h; exact fileStep_same rfl rfl rfl rfl hg0
  case trajectories =>
    split at h
    · rename_i t x ht hx
      obtain ⟨y, hy, h⟩ := bind_ok h
      cases h
      refine fileStep_one (fun o ho => by cases o <;> first | rfl | exact absurd rfl ho) (fun o ho => ?_)
        ⟨List.prefix_rfl, List.prefix_rfl, List.prefix_rfl⟩
      cases o <;> try cases ho
      simp only [Sim.fileRows, hx, opensFile, ht]
      exact ⟨(trajWrite_prefix hy _).map _, fun hq => by simp [writesNow] at hq⟩
    · cases h; exact fileStep_same rfl rfl rfl rfl hg0
  case histogram =>
    split at h
    · obtain ⟨x, _, h⟩ := bind_ok h
      cases h
      exact fileStep_same rfl rfl rfl rfl ⟨gridWrite_grows _ _ _ _, List.prefix_rfl, List.prefix_rfl⟩
    · cases h; exact fileStep_same rfl rfl rfl rfl hg0
  case fes =>
    split at h
    · obtain ⟨x, _, h⟩ := bind_ok h
      obtain ⟨p, hp, h⟩ := bind_ok h
      cases h
      exact fileStep_same rfl rfl rfl rfl ⟨List.prefix_rfl, gridWrite_grows _ _ _ _, fesPlot_grows hp⟩
    · cases h; exact fileStep_same rfl rfl rfl rfl hg0
  case deltaF =>
    split at h
    · rename_i f x y hf hx hy
      obtain ⟨v, _, h⟩ := bind_ok h
      obtain ⟨z, hz, h⟩ := bind_ok h
      cases h
      refine fileStep_one (fun o ho => by cases o <;> first | rfl | exact absurd rfl ho) (fun o ho => ?_)
        ⟨List.prefix_rfl, List.prefix_rfl, List.prefix_rfl⟩
      cases o <;> try cases ho
      simp only [Sim.fileRows, hy, opensFile, hf]
      exact ⟨(seriesFinal_prefix hz).map _, fun hq => by simp [writesNow] at hq⟩
    · cases h; exact fileStep_same rfl rfl rfl rfl hg0
  case particleDistribution =>
    split at h
    · rename_i f y hf hy
      obtain ⟨v, _, h⟩ := bind_ok h
      obtain ⟨z, hz, h⟩ := bind_ok h
      cases h
      refine fileStep_one (fun o ho => by cases o <;> first | rfl | exact absurd rfl ho) (fun o ho => ?_)
        ⟨List.prefix_rfl, List.prefix_rfl, List.prefix_rfl⟩
      cases o <;> try cases ho
      simp only [Sim.fileRows, hy, opensFile, hf]
      exact ⟨(seriesFinal_prefix hz).map _, fun hq => by simp [writesNow] at hq⟩
    · cases h; exact fileStep_same rfl rfl rfl rfl hg0

/-! ### The whole run -/

/-- The operation creates a file without a previous initialisation. -/
def Spec.FileOp.creates {α : Type} : FileOp α → Bool
  | .init _ _ => false
  | .append _ _ => false
  | .grid _ _ _ => true
  | .overwrite _ _ => true

/-- The operations for the grids and plots of a state. -/
def Spec.gridOps (s : Sim d R) : List (FileOp DiskLine) :=
  s.histWrites.map (fun x => .grid x.1.toList d [.histogram x.2]) ++
    s.fesWrites.map (fun x => .grid x.1.toList d [.fes x.2]) ++
    (s.plots.filter (fun x => !x.asked)).map (fun x => .overwrite (figureFile x.name) [.figure x.figure])

/-- The operations on files agree with the lists of the state. -/
structure Spec.DiskInv (files : List (Path × OutFile)) (s : Sim d R) (r : List (FileOp DiskLine)) : Prop where
  rows : (files.map Prod.fst).Nodup → ∀ f ∈ files, Spec.appended f.1 r = s.fileRows f.2
  mixed : ∀ p, (Spec.appended p r).Perm ((files.filter (fun f => decide (f.1 = p))).flatMap (fun f => s.fileRows f.2))
  grids : (r.filter Spec.FileOp.creates).Perm (gridOps s)
  noInit : ∀ p h, FileOp.init p h ∉ r
  known : ∀ p rows, FileOp.append p rows ∈ r → p ∈ files.map Prod.fst

theorem appended_append {α : Type} (p : Path) (r r' : List (FileOp α)) :
    Spec.appended p (r ++ r') = Spec.appended p r ++ Spec.appended p r' := by
  unfold Spec.appended
  rw [List.flatMap_append]

theorem appended_creates {α : Type} (p : Path) (r : List (FileOp α)) (h : ∀ op ∈ r, Spec.FileOp.creates op = true) :
    Spec.appended p r = [] := by
  unfold Spec.appended
  rw [List.flatMap_eq_nil_iff]
  intro op hop
  have := h op hop
  cases op <;> first | rfl | cases this

/-- The lines appended to one of several files. -/
theorem appended_files {α : Type} {O : Type} (files : List (Path × O)) (P : Path × O → Bool) (g : Path × O → List α) (p : Path) :
    Spec.appended p ((files.filter P).map (fun f => FileOp.append f.1 (g f))) =
      (files.filter (fun f => decide (f.1 = p))).flatMap (fun f => if P f then g f else []) := by
  induction files with
  | nil => rfl
  | cons f files ih =>
    by_cases hP : P f = true
    · rw [List.filter_cons_of_pos hP, List.map_cons]
      by_cases hp : f.1 = p
      · rw [List.filter_cons_of_pos (by simpa using hp), List.flatMap_cons, if_pos hP, ← ih]
        simp [Spec.appended, hp]
      · rw [List.filter_cons_of_neg (by simpa using hp), ← ih]
        simp [Spec.appended, hp]
    · rw [List.filter_cons_of_neg hP, ih]
      by_cases hp : f.1 = p
      · rw [List.filter_cons_of_pos (by simpa using hp), List.flatMap_cons, if_neg hP, List.nil_append]
      · rw [List.filter_cons_of_neg (by simpa using hp)]

theorem filter_name {O : Type} (files : List (Path × O)) (hn : (files.map Prod.fst).Nodup) (f : Path × O) (hf : f ∈ files) :
    files.filter (fun g => decide (g.1 = f.1)) = [f] := by
  induction files with
  | nil => cases hf
  | cons g files ih =>
    rw [List.map_cons, List.nodup_cons] at hn
    rcases List.mem_cons.1 hf with rfl | hf
    · rw [List.filter_cons_of_pos (by simp), List.filter_eq_nil_iff.2 ?_]
      intro x hx hx'
      exact hn.1 (List.mem_map.2 ⟨x, hx, by simpa using hx'⟩)
    · rw [List.filter_cons_of_neg, ih hn.2 hf]
      intro hg
      exact hn.1 (List.mem_map.2 ⟨f, hf, by simpa using (of_decide_eq_true hg).symm⟩)

theorem newPart_append {α : Type} {l l' : List α} (h : l <+: l') : l ++ newPart l l' = l' := by
  obtain ⟨t, rfl⟩ := h
  unfold newPart
  rw [List.drop_left]

theorem diskInv_step {files : List (Path × OutFile)} {c : SimCfg d} {s s' : Sim d R} {r : List (FileOp DiskLine)}
    {final : Bool} {step : Nat} {a : ActName} (h : DiskInv files s r) (hs : FileStep c s s' final step a) :
    DiskInv files s' (r ++ actionOps files c s s' final step a) where
  rows hn f hf := by
    rw [appended_append, h.rows hn f hf]
    unfold actionOps
    rw [List.append_assoc, List.append_assoc, appended_append, appended_creates f.1 (_ ++ _), List.append_nil, appended_files, filter_name files hn f hf]
    · rw [List.flatMap_cons, List.flatMap_nil, List.append_nil]
      by_cases hq : f.2.owner = a ∧ opensFile c s s' final step f.2 = true
      · rw [if_pos (by simpa using hq), newPart_append (hs.rows _)]
      · rw [if_neg (by simpa using hq), List.append_nil, hs.quiet]
        by_cases ho : f.2.owner = a
        · exact Or.inr (by simpa [ho] using hq)
        · exact Or.inl ho
    · intro op hop
      rcases List.mem_append.1 hop with hop | hop
      · obtain ⟨x, _, rfl⟩ := List.mem_map.1 hop; rfl
      rcases List.mem_append.1 hop with hop | hop
      · obtain ⟨x, _, rfl⟩ := List.mem_map.1 hop; rfl
      · obtain ⟨x, _, rfl⟩ := List.mem_map.1 hop; rfl
  mixed p := by
    rw [appended_append]
    unfold actionOps
    rw [List.append_assoc, List.append_assoc, appended_append, appended_creates p (_ ++ _), List.append_nil, appended_files]
    · refine ((h.mixed p).append_right _).trans ((List.flatMap_append_perm _ _ _).trans (List.Perm.of_eq ?_))
      congr 1
      funext f
      by_cases hq : f.2.owner = a ∧ opensFile c s s' final step f.2 = true
      · rw [if_pos (by simpa using hq), newPart_append (hs.rows _)]
      · rw [if_neg (by simpa using hq), List.append_nil, hs.quiet]
        by_cases ho : f.2.owner = a
        · exact Or.inr (by simpa [ho] using hq)
        · exact Or.inl ho
    · intro op hop
      rcases List.mem_append.1 hop with hop | hop
      · obtain ⟨x, _, rfl⟩ := List.mem_map.1 hop; rfl
      rcases List.mem_append.1 hop with hop | hop
      · obtain ⟨x, _, rfl⟩ := List.mem_map.1 hop; rfl
      · obtain ⟨x, _, rfl⟩ := List.mem_map.1 hop; rfl
  grids := by
    have e1 : ∀ l : List (Path × OutFile), ∀ g : Path × OutFile → List DiskLine,
        (l.map (fun f => FileOp.append f.1 (g f))).filter Spec.FileOp.creates = [] := by
      intro l g
      rw [List.filter_eq_nil_iff]
      intro op hop
      obtain ⟨x, _, rfl⟩ := List.mem_map.1 hop
      simp [Spec.FileOp.creates]
    have e2 : ∀ {X : Type} (l : List X) (g : X → FileOp DiskLine), (∀ x, Spec.FileOp.creates (g x) = true) →
        (l.map g).filter Spec.FileOp.creates = l.map g := by
      intro X l g hg
      rw [List.filter_eq_self]
      intro op hop
      obtain ⟨x, _, rfl⟩ := List.mem_map.1 hop
      exact hg x
    unfold actionOps
    rw [List.filter_append, List.filter_append, List.filter_append, List.filter_append, e1, List.nil_append, e2 _ _ (fun _ => rfl),
      e2 _ _ (fun _ => rfl), e2 _ _ (fun _ => rfl)]
    refine (h.grids.append_right _).trans ?_
    unfold gridOps
    have k : ∀ {X : Type} (l l' : List X) (g : X → FileOp DiskLine), l <+: l' → l'.map g = l.map g ++ (newPart l l').map g := by
      intro X l l' g hl
      rw [← List.map_append, newPart_append hl]
    have k' : s'.plots.filter (fun x => !x.asked) = s.plots.filter (fun x => !x.asked) ++
        (newPart s.plots s'.plots).filter (fun x => !x.asked) := by
      rw [← List.filter_append, newPart_append hs.grows.plots]
    rw [k _ _ _ hs.grows.hist, k _ _ _ hs.grows.fes, k', List.map_append]
    generalize List.map _ s.histWrites = A
    generalize List.map _ s.fesWrites = B
    generalize List.map _ (s.plots.filter _) = C
    generalize List.map _ (newPart s.histWrites _) = A'
    generalize List.map _ (newPart s.fesWrites _) = B'
    generalize List.map _ ((newPart s.plots _).filter _) = C'
    rw [← Multiset.coe_eq_coe]
    simp only [← Multiset.coe_add]
    abel
  noInit p x hm := by
    rcases List.mem_append.1 hm with hm | hm
    · exact h.noInit p x hm
    · unfold actionOps at hm
      simp only [List.mem_append, List.mem_map] at hm
      rcases hm with ((⟨_, _, hm⟩ | ⟨_, _, hm⟩) | ⟨_, _, hm⟩) | ⟨_, _, hm⟩ <;> cases hm
  known p x hm := by
    rcases List.mem_append.1 hm with hm | hm
    · exact h.known p x hm
    · unfold actionOps at hm
      simp only [List.mem_append, List.mem_map] at hm
      rcases hm with ((⟨f, hf, hm⟩ | ⟨_, _, hm⟩) | ⟨_, _, hm⟩) | ⟨_, _, hm⟩
      · cases hm
        exact List.mem_map.2 ⟨f, (List.mem_filter.1 hf).1, rfl⟩
      all_goals cases hm

theorem fileStep_events {c : SimCfg d} {s s' : Sim d R} {final : Bool} {step : Nat} {a : ActName} {e : List Event}
    (h : FileStep c s s' final step a) : FileStep c s { s' with events := e } final step a := by
  have hr : ∀ o, Sim.fileRows { s' with events := e } o = s'.fileRows o := rows_same rfl rfl rfl rfl
  have ho : ∀ o, opensFile c s { s' with events := e } final step o = opensFile c s s' final step o := by
    intro o
    cases o <;> simp only [opensFile, hr]
  exact ⟨fun o => by rw [hr]; exact h.rows o, fun o hq => by rw [hr]; rw [ho] at hq; exact h.quiet o hq, ⟨h.grows.hist, h.grows.fes, h.grows.plots⟩⟩

theorem runEvents_disk (files : List (Path × OutFile)) (w : World R) (c : SimCfg d) (step : Nat)
    (pre : List (FileOp DiskLine)) : ∀ (l : List ActName) (s s' : Sim d R) (r : List (FileOp DiskLine)),
    l.foldlM (runEvent w c step) s = .ok s' → DiskInv files s r →
    ∃ r', l.foldlM (runEventD files w c step) (s, pre ++ r) = .ok (s', pre ++ r') ∧ DiskInv files s' r'
  | [], s, s', r, h, hi => by
    cases h
    exact ⟨r, rfl, hi⟩
  | a :: l, s, s', r, h, hi => by
    rw [List.foldlM_cons] at h
    obtain ⟨s1, h1, h2⟩ := bind_ok h
    obtain ⟨s2, h3, h4⟩ := bind_ok h1
    have hf := fileStep_events (e := s2.events ++ [.run a step]) (runAction_files w c s s2 a step h3)
    cases h4
    obtain ⟨r', e1, e2⟩ := runEvents_disk files w c step pre l _ s' _ h2 (diskInv_step hi hf)
    refine ⟨r', ?_, e2⟩
    rw [List.foldlM_cons, runEventD, h1]
    simp only [ok_bind, pure_eq_ok, List.append_assoc]
    exact e1

theorem finalEvents_disk (files : List (Path × OutFile)) (c : SimCfg d) (step : Nat)
    (pre : List (FileOp DiskLine)) : ∀ (l : List ActName) (s s' : Sim d R) (r : List (FileOp DiskLine)),
    l.foldlM (finalEvent c step) s = .ok s' → DiskInv files s r →
    ∃ r', l.foldlM (finalEventD files c step) (s, pre ++ r) = .ok (s', pre ++ r') ∧ DiskInv files s' r'
  | [], s, s', r, h, hi => by
    cases h
    exact ⟨r, rfl, hi⟩
  | a :: l, s, s', r, h, hi => by
    rw [List.foldlM_cons] at h
    obtain ⟨s1, h1, h2⟩ := bind_ok h
    obtain ⟨s2, h3, h4⟩ := bind_ok h1
    have hf := fileStep_events (e := s2.events ++ [.final a step]) (finalAction_files c s s2 a step h3)
    cases h4
    obtain ⟨r', e1, e2⟩ := finalEvents_disk files c step pre l _ s' _ h2 (diskInv_step hi hf)
    refine ⟨r', ?_, e2⟩
    rw [List.foldlM_cons, finalEventD, h1]
    simp only [ok_bind, pure_eq_ok, List.append_assoc]
    exact e1

theorem runSteps_disk (files : List (Path × OutFile)) (w : World R) (c : SimCfg d)
    (pre : List (FileOp DiskLine)) (s0 : Sim d R) (h0 : DiskInv files s0 []) : ∀ (n : Nat) (s : Sim d R),
    runSteps w c n s0 = .ok s → ∃ r, runStepsD files w c n (s0, pre) = .ok (s, pre ++ r) ∧ DiskInv files s r
  | 0, s, h => by
    cases h
    exact ⟨[], by rw [List.append_nil]; rfl, h0⟩
  | n + 1, s, h => by
    obtain ⟨s1, h1, h2⟩ := bind_ok h
    obtain ⟨r, e1, e2⟩ := runSteps_disk files w c pre s0 h0 n s1 h1
    obtain ⟨r', e3, e4⟩ := runEvents_disk files w c (n + 1) pre c.actions s1 s r h2 e2
    refine ⟨r', ?_, e4⟩
    rw [runStepsD, e1]
    exact e3

theorem simulate_disk (files : List (Path × OutFile)) (w : World R) (c : SimCfg d) (s0 : Sim d R)
    (h0 : DiskInv files s0 []) (n : Nat) (s : Sim d R) (h : simulate w c n s0 = .ok s) :
    ∃ r, simulateD files w c n s0 = .ok (s, setupOps files ++ r) ∧ DiskInv files s r := by
  obtain ⟨s1, h1, h2⟩ := bind_ok h
  obtain ⟨r, e1, e2⟩ := runSteps_disk files w c (setupOps files) s0 h0 n s1 h1
  obtain ⟨r', e3, e4⟩ := finalEvents_disk files c n (setupOps files) c.actions s1 s r h2 e2
  refine ⟨r', ?_, e4⟩
  rw [simulateD, e1]
  exact e3

theorem setup_noRows {w : World R} {config : Input ℝ} {c' : SimCfg d} {s s' : Sim d R} {c : SimCfg d}
    (hc : c = { kind := c.kind, ld := c.ld }) (hs : s = { particles := s.particles, ldRng := s.ldRng })
    (h : setupOptional w config c s = .ok (c', s')) (hset : SetupOk w c' s') (o : OutFile) : s'.fileRows o = [] := by
  obtain ⟨_, _, _, _, _, h1, _⟩ := setupOptional_parts w config c c' s s' hc hs h
  cases o
  case stats =>
    cases e : config.birthDeath <;> rw [e] at h1 <;> simp only at h1
    · simp only [Sim.fileRows, h1.2]
    · obtain ⟨b, hb, _, hb2⟩ := h1
      simp only [setupBirthDeath] at hb
      obtain ⟨_, _, hb⟩ := bind_ok hb
      obtain ⟨_, _, hb⟩ := bind_ok hb
      obtain ⟨_, _, hb⟩ := bind_ok hb
      obtain ⟨_, _, hb⟩ := bind_ok hb
      obtain ⟨_, _, hb⟩ := bind_ok hb
      obtain ⟨_, _, hb⟩ := bind_ok hb
      obtain ⟨_, _, hb⟩ := bind_ok hb
      obtain ⟨_, _, hb⟩ := bind_ok hb
      obtain ⟨_, _, hb⟩ := bind_ok hb
      obtain ⟨_, _, hb⟩ := bind_ok hb
      obtain ⟨_, _, hb⟩ := bind_ok hb
      obtain ⟨_, _, hb⟩ := bind_ok hb
      obtain ⟨_, _, hb⟩ := bind_ok hb
      obtain ⟨_, _, hb⟩ := bind_ok hb
      cases hb
      simp only [Sim.fileRows, hb2, List.map_nil]
  case walker i =>
    rcases ht : c'.traj with _ | t
    · simp only [Sim.fileRows, hset.trajNone ht]
    · obtain ⟨_, _, _, _, f, hf⟩ := hset.traj t ht
      simp only [Sim.fileRows, hf, TrajState.init]
      cases f
      · rfl
      · simp only [if_true, Option.getD_some]
        rw [List.getD_eq_getElem?_getD]
        by_cases hi : i < t.nParticles
        · rw [List.getElem?_replicate_of_lt hi]; rfl
        · rw [List.getElem?_eq_none (by simpa using hi)]; rfl
  case deltaF =>
    rcases ht : c'.deltaF with _ | t
    · simp only [Sim.fileRows, hset.deltaFNone ht]
    · obtain ⟨_, _, _, _, hf, _⟩ := hset.deltaF t ht
      simp only [Sim.fileRows, hf, SeriesState.init, List.map_nil]
  case distribution =>
    rcases ht : c'.dist with _ | t
    · simp only [Sim.fileRows, hset.distNone ht]
    · obtain ⟨_, _, hf⟩ := hset.dist t ht
      simp only [Sim.fileRows, hf, SeriesState.init, List.map_nil]

/-! ### The disk for given operations -/

/-- The names of all files that are written. -/
def Spec.diskNames (files : List (Path × OutFile)) (s : Sim d R) : List Path :=
  files.map Prod.fst ++ s.histWrites.map (fun x => x.1.toList) ++ s.fesWrites.map (fun x => x.1.toList) ++
    (s.plots.filter (fun x => !x.asked)).map (fun x => figureFile x.name)

/-- The files of the plots. -/
def Spec.diskPlots (s : Sim d R) : List Path := (s.plots.filter (fun x => !x.asked)).map (fun x => figureFile x.name)

theorem diskNames_eq (files : List (Path × OutFile)) (s : Sim d R) :
    diskNames files s = files.map Prod.fst ++ (gridOps s).map Spec.FileOp.target := by
  simp only [diskNames, gridOps, List.map_append, List.map_map, List.append_assoc]
  rfl

theorem inv_targets {files : List (Path × OutFile)} {s : Sim d R} {r : List (FileOp DiskLine)} (hi : DiskInv files s r) : ∀ op ∈ (setupOps files ++ r), Spec.FileOp.target op ∈ diskNames files s := by
  intro op hop
  rw [diskNames_eq]
  rcases List.mem_append.1 hop with hop | hop
  · obtain ⟨f, hf, rfl⟩ := List.mem_map.1 hop
    exact List.mem_append_left _ (List.mem_map.2 ⟨f, hf, rfl⟩)
  · cases hc : Spec.FileOp.creates op
    · cases op with
      | init p h => exact absurd hop (hi.noInit p h)
      | append p rows => exact List.mem_append_left _ (hi.known p rows hop)
      | grid p d lines => cases hc
      | overwrite p lines => cases hc
    · exact List.mem_append_right _ (List.mem_map.2 ⟨op, hi.grids.mem_iff.1 (List.mem_filter.2 ⟨hop, hc⟩), rfl⟩)

/-- The last operation with a name, if names are different. -/
theorem inv_split {files : List (Path × OutFile)} {s : Sim d R} {r : List (FileOp DiskLine)} (hi : DiskInv files s r) (hn : (diskNames files s).Nodup) (op : FileOp DiskLine)
    (hop : op ∈ gridOps s) : ∃ before after, (setupOps files ++ r) = before ++ op :: after ∧
      ∀ op' ∈ after, Spec.FileOp.target op' ≠ Spec.FileOp.target op := by
  have hop' := hi.grids.mem_iff.2 hop
  obtain ⟨hm, hc⟩ := List.mem_filter.1 hop'
  obtain ⟨r1, r2, e⟩ := List.append_of_mem hm
  refine ⟨setupOps files ++ r1, r2, ?_, fun x hx he => ?_⟩
  · rw [List.append_assoc, ← e]
  have hxr : x ∈ r := by rw [e]; simp [hx]
  rw [diskNames_eq, List.nodup_append] at hn
  obtain ⟨_, n2, n3⟩ := hn
  cases hcx : Spec.FileOp.creates x
  · cases x with
    | init p h => exact hi.noInit p h hxr
    | append p rows =>
      exact n3 _ (hi.known p rows hxr) _ (List.mem_map.2 ⟨op, hop, rfl⟩) he
    | grid p d lines => cases hcx
    | overwrite p lines => cases hcx
  · have n4 : ((r.filter Spec.FileOp.creates).map Spec.FileOp.target).Nodup :=
      (hi.grids.map _).nodup_iff.2 n2
    rw [e, List.filter_append, List.filter_cons_of_pos hc, List.map_append, List.map_cons] at n4
    have n5 := (List.nodup_append.1 n4).2.1
    rw [List.nodup_cons] at n5
    exact n5.1 (List.mem_map.2 ⟨x, List.mem_filter.2 ⟨hx, hcx⟩, he⟩)

theorem map_target_init (l : List (Path × OutFile)) : (setupOps l).map Spec.FileOp.target = l.map Prod.fst := by
  simp only [setupOps, List.map_map]
  rfl

/-- The files on disk after operations that agree with a state, if no two files have the same name. -/
theorem disk_of_inv {files : List (Path × OutFile)} {s : Sim d R} {r : List (FileOp DiskLine)} (hi : DiskInv files s r) (fs : FileSys DiskLine) :
    ∃ fs', execOps fs (setupOps files ++ r) = some fs' ∧
      (∀ p lines, fs.get p = some lines → p ∉ diskNames files s → fs'.get p = some lines) ∧
      ((diskNames files s).Nodup →
        (∀ f ∈ files, fs'.get f.1 = some (.header f.2 :: s.fileRows f.2)) ∧
        (d = 1 ∨ d = 2 → ∀ x ∈ s.histWrites, fs'.get x.1.toList = some [.histogram x.2]) ∧
        (d = 1 ∨ d = 2 → ∀ x ∈ s.fesWrites, fs'.get x.1.toList = some [.fes x.2]) ∧
        (∀ x ∈ s.plots, x.asked = false → fs'.get (figureFile x.name) = some [.figure x.figure]) ∧
        ∀ p lines, fs.get p = some lines → (∀ q, BackupChain p q → q ∉ diskPlots s) →
          ∃ q, BackupChain p q ∧ fs'.get q = some lines) := by
  obtain ⟨fs', hfs⟩ := execOps_total fs (setupOps files ++ r)
  refine ⟨fs', hfs, fun p lines hp hnp => ?_, fun hn => ⟨fun f hf => ?_, fun hd x hx => ?_, fun hd x hx => ?_, fun x hx hask => ?_,
    fun p lines hp hq => ?_⟩⟩
  · exact files_untouched (setupOps files ++ r) fs fs' hfs p lines (fun op hop he => hnp (he ▸ inv_targets hi op hop)) hp
  · have hn' := hn
    rw [diskNames_eq, List.nodup_append] at hn'
    obtain ⟨n1, n2, n3⟩ := hn'
    obtain ⟨l1, l2, e⟩ := List.append_of_mem hf
    have e' : (setupOps files ++ r) = setupOps l1 ++ .init f.1 [.header f.2] :: (setupOps l2 ++ r) := by
      rw [e, setupOps, List.map_append, List.map_cons, List.append_assoc]
      rfl
    have n5 : f.1 ∉ l2.map Prod.fst := by
      rw [e, List.map_append, List.map_cons] at n1
      exact (List.nodup_cons.1 (List.nodup_append.1 n1).2.1).1
    rw [e'] at hfs
    rw [files_series _ _ _ _ _ _ hfs, appended_append, hi.rows n1 f hf]
    · have : Spec.appended f.1 (setupOps l2) = ([] : List DiskLine) := by
        unfold Spec.appended setupOps
        rw [List.flatMap_eq_nil_iff]
        intro op hop
        obtain ⟨g, _, rfl⟩ := List.mem_map.1 hop
        rfl
      rw [this]
      rfl
    · intro op hop ht
      rcases List.mem_append.1 hop with hop | hop
      · exfalso
        apply n5
        rw [← map_target_init, ← ht]
        exact List.mem_map_of_mem hop
      · cases hc : Spec.FileOp.creates op
        · cases op with
          | init p h => exact absurd hop (hi.noInit p h)
          | append p rows => exact ⟨rows, by rw [← ht]; rfl⟩
          | grid p d lines => cases hc
          | overwrite p lines => cases hc
        · exact absurd ht.symm (n3 _ (List.mem_map.2 ⟨f, hf, rfl⟩) _
            (List.mem_map.2 ⟨op, hi.grids.mem_iff.1 (List.mem_filter.2 ⟨hop, hc⟩), rfl⟩))
  · obtain ⟨before, after, e, hafter⟩ := inv_split hi hn (.grid x.1.toList d [.histogram x.2])
      (List.mem_append_left _ (List.mem_append_left _ (List.mem_map.2 ⟨x, hx, rfl⟩)))
    rw [e] at hfs
    exact files_grid before after _ _ hd _ _ _ hfs hafter
  · obtain ⟨before, after, e, hafter⟩ := inv_split hi hn (.grid x.1.toList d [.fes x.2])
      (List.mem_append_left _ (List.mem_append_right _ (List.mem_map.2 ⟨x, hx, rfl⟩)))
    rw [e] at hfs
    exact files_grid before after _ _ hd _ _ _ hfs hafter
  · obtain ⟨before, after, e, hafter⟩ := inv_split hi hn (.overwrite (figureFile x.name) [.figure x.figure])
      (List.mem_append_right _ (List.mem_map.2 ⟨x, List.mem_filter.2 ⟨hx, by rw [hask]; rfl⟩, rfl⟩))
    rw [e] at hfs
    exact files_plot before after _ _ _ _ hfs hafter
  · have hok : OpsOk [] (setupOps files ++ r) := by
      have := opsOk_program (files.map (fun f => (f.1, [DiskLine.header f.2]))) r hi.noInit
        (fun p rows hm => by rw [List.map_map]; exact hi.known p rows hm)
        (fun p d lines hm => by
          refine Or.inr (Or.inr (fun hp => ?_))
          rw [List.map_map] at hp
          rw [diskNames_eq, List.nodup_append] at hn
          exact hn.2.2 p hp p (List.mem_map.2 ⟨_, hi.grids.mem_iff.1 (List.mem_filter.2 ⟨hm, rfl⟩), rfl⟩) rfl)
      rw [List.map_map] at this
      exact this
    obtain ⟨fs'', e1, e2⟩ := files_kept (setupOps files ++ r) hok fs
    rw [hfs] at e1
    cases e1
    refine e2 p lines hp (fun q hpq ls hm => hq q hpq ?_)
    rcases List.mem_append.1 hm with hm | hm
    · obtain ⟨g, _, hg⟩ := List.mem_map.1 hm
      cases hg
    · have := hi.grids.mem_iff.1 (List.mem_filter.2 ⟨hm, rfl⟩)
      simp only [gridOps, List.mem_append, List.mem_map] at this
      rcases this with (⟨x, _, hx⟩ | ⟨x, _, hx⟩) | ⟨x, hx, hx'⟩
      · cases hx
      · cases hx
      · cases hx'
        exact List.mem_map.2 ⟨x, hx, rfl⟩

variable {w : World R} {file : Option (List Section)} {a : AnySim R} {config : Input ℝ} {n : Nat} {s0 : Sim a.d R}

/-- The output files of a run with rows. -/
def FinishedRun.files (_hr : FinishedRun w file a config n s0) : List (Path × OutFile) :=
  outFiles config s0.particles.length

/-- The names of all files that are written. -/
def FinishedRun.fileNames (hr : FinishedRun w file a config n s0) : List Path :=
  hr.files.map Prod.fst ++ a.sim.histWrites.map (fun x => x.1.toList) ++ a.sim.fesWrites.map (fun x => x.1.toList) ++
    (a.sim.plots.filter (fun x => !x.asked)).map (fun x => figureFile x.name)

/-- The files of the plots. -/
def FinishedRun.plotNames (_hr : FinishedRun w file a config n s0) : List Path :=
  (a.sim.plots.filter (fun x => !x.asked)).map (fun x => figureFile x.name)

theorem run_disk (hr : FinishedRun w file a config n s0) : ∃ r,
    simulateD hr.files w a.cfg n s0 = .ok (a.sim, setupOps hr.files ++ r) ∧ DiskInv hr.files a.sim r := by
  refine simulate_disk hr.files w a.cfg s0 ?_ n a.sim hr.sim
  refine ⟨fun _ f _ => ?_, fun p => ?_, ?_, fun _ _ h => absurd h List.not_mem_nil, fun _ _ h => absurd h List.not_mem_nil⟩
  · rw [setup_noRows rfl rfl hr.optional hr.setup]
    rfl
  · refine List.Perm.of_eq (List.flatMap_eq_nil_iff.2 fun f _ => ?_).symm
    rw [setup_noRows rfl rfl hr.optional hr.setup]
  · simp only [gridOps, hr.setup.histWrites, hr.setup.fesWrites, hr.setup.plots]
    exact List.Perm.refl _

theorem gridOps_names (hr : FinishedRun w file a config n s0) :
    hr.fileNames = hr.files.map Prod.fst ++ (gridOps a.sim).map Spec.FileOp.target := by
  simp only [FinishedRun.fileNames, gridOps, List.map_append, List.map_map, List.append_assoc]
  rfl

/-- The operations of the run. -/
def FinishedRun.ops (hr : FinishedRun w file a config n s0) : List (FileOp DiskLine) :=
  match simulateD hr.files w a.cfg n s0 with
  | .ok x => x.2
  | .error _ => []

theorem run_ops (hr : FinishedRun w file a config n s0) : ∃ r, hr.ops = setupOps hr.files ++ r ∧
    simulateD hr.files w a.cfg n s0 = .ok (a.sim, hr.ops) ∧ DiskInv hr.files a.sim r := by
  obtain ⟨r, h1, h2⟩ := run_disk hr
  have e : hr.ops = setupOps hr.files ++ r := by simp only [FinishedRun.ops, h1]
  exact ⟨r, e, by rw [h1, e], h2⟩

theorem ops_targets (hr : FinishedRun w file a config n s0) : ∀ op ∈ hr.ops, Spec.FileOp.target op ∈ hr.fileNames := by
  obtain ⟨r, hops, _, hi⟩ := run_ops hr
  rw [hops]
  exact inv_targets hi

/-- C151: the files on disk after a run that does not write two files with the same name. -/
theorem main_disk_partial (hr : FinishedRun w file a config n s0) (fs : FileSys DiskLine) :
    simulateD hr.files w a.cfg n s0 = .ok (a.sim, hr.ops) ∧ ∃ fs', execOps fs hr.ops = some fs' ∧
      (∀ p lines, fs.get p = some lines → p ∉ hr.fileNames → fs'.get p = some lines) ∧
      (hr.fileNames.Nodup →
        (∀ f ∈ hr.files, fs'.get f.1 = some (.header f.2 :: a.sim.fileRows f.2)) ∧
        (a.d = 1 ∨ a.d = 2 → ∀ x ∈ a.sim.histWrites, fs'.get x.1.toList = some [.histogram x.2]) ∧
        (a.d = 1 ∨ a.d = 2 → ∀ x ∈ a.sim.fesWrites, fs'.get x.1.toList = some [.fes x.2]) ∧
        (∀ x ∈ a.sim.plots, x.asked = false → fs'.get (figureFile x.name) = some [.figure x.figure]) ∧
        ∀ p lines, fs.get p = some lines → (∀ q, BackupChain p q → q ∉ hr.plotNames) →
          ∃ q, BackupChain p q ∧ fs'.get q = some lines) := by
  obtain ⟨r, hops, h1, hi⟩ := run_ops hr
  refine ⟨h1, ?_⟩
  rw [hops]
  exact disk_of_inv hi fs

/-- Nothing else is on disk than what was there, the files of the run, and backups of files with these names. -/
theorem disk_only (hr : FinishedRun w file a config n s0) (fs fs' : FileSys DiskLine) (h : execOps fs hr.ops = some fs') (q : Path)
    (c : List DiskLine) (hq : fs'.get q = some c) : (∃ c', fs.get q = some c') ∨
      ∃ p ∈ hr.fileNames, q = p ∨ IsBackup p q := by
  rcases files_only hr.ops fs fs' h q c hq with h | ⟨op, hop, h⟩
  · exact .inl h
  · exact .inr ⟨_, ops_targets hr op hop, h⟩

/-- Files with the same name: if two or more actions have the same name for a file of rows, only the header of the last
one is at its beginning, followed by the rows of all of them. -/
theorem disk_shared (hr : FinishedRun w file a config n s0) (fs fs' : FileSys DiskLine) (h : execOps fs hr.ops = some fs')
    (before after : List (Path × OutFile)) (f : Path × OutFile) (hf : hr.files = before ++ f :: after)
    (hlast : f.1 ∉ after.map Prod.fst) (hg : f.1 ∉ (gridOps a.sim).map Spec.FileOp.target) :
    ∃ rows, fs'.get f.1 = some (.header f.2 :: rows) ∧
      rows.Perm ((hr.files.filter (fun g => decide (g.1 = f.1))).flatMap (fun g => a.sim.fileRows g.2)) := by
  obtain ⟨r, hops, _, hi⟩ := run_ops hr
  refine ⟨Spec.appended f.1 r, ?_, hi.mixed f.1⟩
  have e' : hr.ops = setupOps before ++ .init f.1 [.header f.2] :: (setupOps after ++ r) := by
    rw [hops, hf, setupOps, List.map_append, List.map_cons, List.append_assoc]
    rfl
  rw [e'] at h
  rw [files_series _ _ _ _ _ _ h, appended_append]
  · have : Spec.appended f.1 (setupOps after) = ([] : List DiskLine) := by
      unfold Spec.appended setupOps
      rw [List.flatMap_eq_nil_iff]
      intro op hop
      obtain ⟨g, _, rfl⟩ := List.mem_map.1 hop
      rfl
    rw [this]
    rfl
  · intro op hop ht
    rcases List.mem_append.1 hop with hop | hop
    · exfalso
      apply hlast
      rw [← map_target_init, ← ht]
      exact List.mem_map_of_mem hop
    · cases hc : Spec.FileOp.creates op
      · cases op with
        | init p h => exact absurd hop (hi.noInit p h)
        | append p rows => exact ⟨rows, by rw [← ht]; rfl⟩
        | grid p d lines => cases hc
        | overwrite p lines => cases hc
      · exact absurd (List.mem_map.2 ⟨op, hi.grids.mem_iff.1 (List.mem_filter.2 ⟨hop, hc⟩), ht⟩) hg

/-! ### The operations do not change the run -/

theorem foldlM_fst {S O A : Type} (f : S → A → Except PyErr S) (g : S × O → A → Except PyErr (S × O))
    (hfg : ∀ x a, (g x a).map Prod.fst = f x.1 a) : ∀ (l : List A) (x : S × O), (l.foldlM g x).map Prod.fst = l.foldlM f x.1
  | [], x => rfl
  | a :: l, x => by
    rw [List.foldlM_cons, List.foldlM_cons, ← hfg x a]
    rcases g x a with e | y
    · rfl
    · exact foldlM_fst f g hfg l y

omit a s0 in
/-- The simulation is the one without files; the same exceptions are raised. -/
theorem simulateD_fst (files : List (Path × OutFile)) (w : World R) {d : Nat} (c : SimCfg d) (n : Nat) (s : Sim d R) :
    (simulateD files w c n s).map Prod.fst = simulate w c n s := by
  have h1 : ∀ n, ∀ x : Sim d R × List (FileOp DiskLine), (runStepsD files w c n x).map Prod.fst = runSteps w c n x.1 := by
    intro n
    induction n with
    | zero => intro x; rfl
    | succ n ih =>
      intro x
      rw [runStepsD, runSteps, ← ih x]
      rcases runStepsD files w c n x with e | y
      · rfl
      · refine foldlM_fst _ _ (fun z a => ?_) _ _
        unfold runEventD
        rcases runEvent w c (n + 1) z.1 a with e | z' <;> rfl
  rw [simulateD, simulate, ← h1 n (s, setupOps files)]
  rcases runStepsD files w c n (s, setupOps files) with e | y
  · rfl
  · refine foldlM_fst (finalEvent c n) (finalEventD files c n) (fun z a => ?_) c.actions y
    unfold finalEventD
    rcases finalEvent c n z.1 a with e | z' <;> rfl

end

end Bdld
