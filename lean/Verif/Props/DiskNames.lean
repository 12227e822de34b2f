import Verif.Props.Disk
import Verif.Props.MainGridFiles
import Verif.Props.MainPlots
import Verif.Lemmas.Text
import Mathlib.Data.List.Nodup

/-
C151: names in the input file for which all files of a run have different names.
-/

namespace Bdld

open Spec

noncomputable section

namespace Spec

/-- The dots at the end are removed. -/
def rstripDots (p : Path) : Path := (p.reverse.dropWhile (· = '.')).reverse

/-- What the program appends to a name: nothing, or a separator and digits. -/
def isEnding : Path → Bool
  | [] => true
  | c :: ds => (c == '.' || c == '_') && ds.all Char.isDigit

/-- The second name looks like one of those that the program makes of the first. -/
def Clash (p q : Path) : Prop := p <+: q ∧ isEnding (q.drop p.length) = true

instance (p q : Path) : Decidable (Clash p q) := by unfold Clash; infer_instance

/-- The names in the input file, except that of the plots. -/
def baseNames (config : Input ℝ) : List Path :=
  (optName config.birthDeath "stats-filename").toList ++ (optName config.trajectories "filename").toList ++
    (optName config.deltaF "filename").toList ++ (optName config.particleDistribution "filename").toList ++
    (optName config.histogram "filename").toList ++ (optName config.fes "filename").toList

/-- The name of the plots. -/
def plotBase (config : Input ℝ) : Option Path := (optName config.fes "plot-filename").map rstripDots

/-- No name is made of another one by appending a separator and digits, and the name of the plots is not the beginning
of another one. -/
structure ClearNames (config : Input ℝ) : Prop where
  distinct : (baseNames config).Pairwise (fun p q => ¬ Clash p q ∧ ¬ Clash q p)
  plot : ∀ u ∈ plotBase config, ∀ p ∈ baseNames config, ¬ u <+: p ∧ ¬ Clash p u

end Spec

/-! ### Endings -/

theorem isEnding_prefix (t s : Path) (h : isEnding (t ++ s) = true) : isEnding t = true := by
  cases t with
  | nil => rfl
  | cons c ds =>
    simp only [List.cons_append, isEnding, List.all_append, Bool.and_eq_true] at h ⊢
    exact ⟨h.1, h.2.1⟩

theorem clash_of_append (p t : Path) (h : isEnding t = true) : Clash p (p ++ t) :=
  ⟨List.prefix_append _ _, by rw [List.drop_left]; exact h⟩

theorem clash_of_eq (p q s s' : Path) (h : p ++ s = q ++ s') (hs : isEnding s = true) (hs' : isEnding s' = true) :
    Clash p q ∨ Clash q p := by
  rcases List.append_eq_append_iff.1 h with ⟨t, e1, e2⟩ | ⟨t, e1, e2⟩
  · left
    rw [e1]
    exact clash_of_append p t (isEnding_prefix t s' (by rw [← e2]; exact hs))
  · right
    rw [e1]
    exact clash_of_append q t (isEnding_prefix t s (by rw [← e2]; exact hs'))

theorem isEnding_digits (c : Char) (hc : c = '.' ∨ c = '_') (i : Nat) : isEnding (c :: Nat.toDigits 10 i) = true := by
  have : (Nat.toDigits 10 i).all Char.isDigit = true := List.all_eq_true.2 (digit_of_mem_toDigits i)
  rcases hc with rfl | rfl <;> simp [isEnding, this]

theorem toDigits_inj {i j : Nat} (h : Nat.toDigits 10 i = Nat.toDigits 10 j) : i = j := by
  rw [← Nat.ofDigitChars_ten_toDigits (n := i), h, Nat.ofDigitChars_ten_toDigits]

/-- Digits followed by nothing or by a dot. -/
theorem toDigits_dot {i j : Nat} {x y : Path} (hx : x = [] ∨ x = ".png".toList) (hy : y = [] ∨ y = ".png".toList)
    (h : Nat.toDigits 10 i ++ x = Nat.toDigits 10 j ++ y) : i = j := by
  have key : ∀ (n : Nat) (z : Path), (z = [] ∨ z = ".png".toList) → (Nat.toDigits 10 n ++ z).takeWhile Char.isDigit = Nat.toDigits 10 n := by
    intro n z hz
    rw [List.takeWhile_append_of_pos (digit_of_mem_toDigits n)]
    rcases hz with rfl | rfl <;> simp [show Char.isDigit '.' = false from rfl]
  have := congrArg (List.takeWhile Char.isDigit) h
  rw [key i x hx, key j y hy] at this
  exact toDigits_inj this

/-! ### The plots -/

theorem rstrip_spec (p : Path) : ∃ k, p = rstripDots p ++ List.replicate k '.' := by
  have h := List.takeWhile_append_dropWhile (p := fun c : Char => decide (c = '.')) (l := p.reverse)
  refine ⟨(p.reverse.takeWhile (fun c => decide (c = '.'))).length, ?_⟩
  have e : p.reverse.takeWhile (fun c => decide (c = '.')) =
      List.replicate (p.reverse.takeWhile (fun c => decide (c = '.'))).length '.' := by
    refine List.eq_replicate_iff.2 ⟨rfl, fun c hc => ?_⟩
    simpa using List.mem_takeWhile_imp hc
  have := congrArg List.reverse h
  rw [List.reverse_append, List.reverse_reverse, e, List.reverse_replicate] at this
  exact this.symm

theorem rstrip_step (p : Path) (t : Nat) : rstripDots (p ++ '_' :: Nat.toDigits 10 t) = p ++ '_' :: Nat.toDigits 10 t := by
  have hne : Nat.toDigits 10 t ≠ [] := Nat.toDigits_ne_nil
  obtain ⟨l, c, e⟩ := (List.eq_nil_or_concat _).resolve_left hne
  rw [List.concat_eq_append] at e
  have hc : c ≠ '.' := by
    have := digit_of_mem_toDigits t c (by rw [e]; simp)
    rintro rfl
    cases this
  unfold rstripDots
  rw [e]
  simp [hc]

theorem figureFile_step (q : String) (t : Nat) : ∃ x, (x = [] ∨ x = ".png".toList) ∧
    figureFile (q ++ "_" ++ Nat.repr t) = q.toList ++ '_' :: Nat.toDigits 10 t ++ x := by
  have e := stepFilename_toList q t
  rw [stepFilename] at e
  unfold figureFile
  rw [e]
  split
  · refine ⟨_, Or.inr rfl, ?_⟩
    have := rstrip_step q.toList t
    unfold rstripDots at this
    rw [this]
  · exact ⟨[], Or.inl rfl, by rw [List.append_nil]⟩

theorem figureFile_final (q : String) : figureFile q = q.toList ∨ figureFile q = rstripDots q.toList ++ ".png".toList := by
  unfold figureFile rstripDots
  split
  · exact Or.inr rfl
  · exact Or.inl rfl

theorem figureFile_inj (q : String) {t t' : Nat} (h : figureFile (q ++ "_" ++ Nat.repr t) = figureFile (q ++ "_" ++ Nat.repr t')) :
    t = t' := by
  obtain ⟨x, hx, e⟩ := figureFile_step q t
  obtain ⟨x', hx', e'⟩ := figureFile_step q t'
  rw [e, e', List.append_assoc, List.append_assoc] at h
  exact toDigits_dot hx hx' (List.cons.inj (List.append_cancel_left h)).2

theorem figureFile_ne (q : String) (t : Nat) : figureFile (q ++ "_" ++ Nat.repr t) ≠ figureFile q := by
  obtain ⟨x, hx, e⟩ := figureFile_step q t
  rw [e]
  rcases figureFile_final q with h | h <;> rw [h]
  · intro he
    have := congrArg List.length he
    simp at this
  · intro he
    obtain ⟨k, hk⟩ := rstrip_spec q.toList
    generalize rstripDots q.toList = u at *
    rw [hk, List.append_assoc, List.append_assoc] at he
    have h1 := List.append_cancel_left he
    have : '_' ∈ (".png".toList : List Char) := by
      rw [← h1]
      simp
    revert this
    decide

theorem plot_prefix (q : String) : rstripDots q.toList <+: figureFile q := by
  rcases figureFile_final q with h | h <;> rw [h]
  · obtain ⟨k, hk⟩ := rstrip_spec q.toList
    exact ⟨_, hk.symm⟩
  · exact List.prefix_append _ _

theorem plot_step_prefix (q : String) (t : Nat) : rstripDots q.toList <+: figureFile (q ++ "_" ++ Nat.repr t) := by
  obtain ⟨x, _, e⟩ := figureFile_step q t
  obtain ⟨k, hk⟩ := rstrip_spec q.toList
  rw [e]
  conv_rhs => rw [hk]
  rw [List.append_assoc, List.append_assoc]
  exact List.prefix_append _ _

theorem plotFiles_names (q : String) (l : List Nat) (hl : l.Nodup) :
    ((l.map (fun t => q ++ "_" ++ Nat.repr t) ++ [q]).map figureFile).Nodup ∧
      ∀ p ∈ (l.map (fun t => q ++ "_" ++ Nat.repr t) ++ [q]).map figureFile, rstripDots q.toList <+: p := by
  rw [List.map_append, List.map_map, List.map_cons, List.map_nil]
  constructor
  · rw [List.nodup_append]
    refine ⟨hl.map fun i j h => figureFile_inj q h, List.nodup_singleton _, ?_⟩
    intro x hx y hy he
    obtain ⟨t, _, rfl⟩ := List.mem_map.1 hx
    rw [List.mem_singleton.1 hy] at he
    exact figureFile_ne q t he
  · intro x hx
    rcases List.mem_append.1 hx with hx | hx
    · obtain ⟨t, _, rfl⟩ := List.mem_map.1 hx
      exact plot_step_prefix q t
    · rw [List.mem_singleton.1 hx]
      exact plot_prefix q

/-! ### Actions that are not set up -/

variable {R : Type} {d : Nat}

/-- What every action keeps is kept by the run. -/
theorem simulate_keeps (w : World R) (c : SimCfg d) (P : Sim d R → Prop)
    (hev : ∀ s e, P s → P { s with events := e })
    (hrun : ∀ s s' a step, runAction w c s a step = .ok s' → P s → P s')
    (hfin : ∀ s s' a step, finalAction c s a step = .ok s' → P s → P s') (n : Nat) (s s' : Sim d R)
    (h : simulate w c n s = .ok s') (hs : P s) : P s' := by
  have f1 : ∀ (step : Nat) (l : List ActName) (s s' : Sim d R), l.foldlM (runEvent w c step) s = .ok s' → P s → P s' := by
    intro step l
    induction l with
    | nil => intro s s' h hs; cases h; exact hs
    | cons a l ih =>
      intro s s' h hs
      rw [List.foldlM_cons] at h
      obtain ⟨s1, h1, h2⟩ := bind_ok h
      obtain ⟨s2, h3, h4⟩ := bind_ok h1
      cases h4
      exact ih _ _ h2 (hev _ _ (hrun _ _ _ _ h3 hs))
  have f2 : ∀ (step : Nat) (l : List ActName) (s s' : Sim d R), l.foldlM (finalEvent c step) s = .ok s' → P s → P s' := by
    intro step l
    induction l with
    | nil => intro s s' h hs; cases h; exact hs
    | cons a l ih =>
      intro s s' h hs
      rw [List.foldlM_cons] at h
      obtain ⟨s1, h1, h2⟩ := bind_ok h
      obtain ⟨s2, h3, h4⟩ := bind_ok h1
      cases h4
      exact ih _ _ h2 (hev _ _ (hfin _ _ _ _ h3 hs))
  have f3 : ∀ (n : Nat) (s s' : Sim d R), runSteps w c n s = .ok s' → P s → P s' := by
    intro n
    induction n with
    | zero => intro s s' h hs; cases h; exact hs
    | succ n ih =>
      intro s s' h hs
      obtain ⟨s1, h1, h2⟩ := bind_ok h
      exact f1 _ _ _ _ h2 (ih _ _ h1 hs)
  obtain ⟨s1, h1, h2⟩ := bind_ok h
  exact f2 _ _ _ _ h2 (f3 _ _ _ h1 hs)

theorem simulate_noHist (w : World R) (c : SimCfg d) (hc : c.hist = none) (n : Nat) (s s' : Sim d R)
    (h : simulate w c n s = .ok s') (hs : s.histWrites = []) : s'.histWrites = [] := by
  refine simulate_keeps w c (fun s => s.histWrites = []) (fun _ _ h => h) ?_ ?_ n s s' h hs
  · intro s s' a step h hs
    cases a <;> simp only [runAction, hc] at h <;> try (split at h)
    all_goals first
      | contradiction
      | (cases h; exact hs)
      | (obtain ⟨_, _, h⟩ := bind_ok h; first | (cases h; exact hs) | (obtain ⟨_, _, h⟩ := bind_ok h; cases h; exact hs))
  · intro s s' a step h hs
    cases a <;> simp only [finalAction, hc] at h <;> try (split at h)
    all_goals first
      | contradiction
      | (cases h; exact hs)
      | (obtain ⟨_, _, h⟩ := bind_ok h; first | (cases h; exact hs) | (obtain ⟨_, _, h⟩ := bind_ok h; cases h; exact hs))

theorem simulate_noFes (w : World R) (c : SimCfg d) (hc : c.fes = none) (n : Nat) (s s' : Sim d R)
    (h : simulate w c n s = .ok s') (hs : s.fesWrites = [] ∧ s.plots = []) : s'.fesWrites = [] ∧ s'.plots = [] := by
  refine simulate_keeps w c (fun s => s.fesWrites = [] ∧ s.plots = []) (fun _ _ h => h) ?_ ?_ n s s' h hs
  · intro s s' a step h hs
    cases a <;> simp only [runAction, hc] at h <;> try (split at h)
    all_goals first
      | contradiction
      | (cases h; exact hs)
      | (obtain ⟨_, _, h⟩ := bind_ok h; first | (cases h; exact hs) | (obtain ⟨_, _, h⟩ := bind_ok h; cases h; exact hs))
  · intro s s' a step h hs
    cases a <;> simp only [finalAction, hc] at h <;> try (split at h)
    all_goals first
      | contradiction
      | (cases h; exact hs)
      | (obtain ⟨_, _, h⟩ := bind_ok h; first | (cases h; exact hs) | (obtain ⟨_, _, h⟩ := bind_ok h; cases h; exact hs))

/-! ### Options -/

theorem optName_none (key : String) : optName none key = none := rfl

theorem optName_some (o : Dict (OptVal ℝ)) (key : String) :
    optName (some o) key = if strOption o key = "" then none else some (strOption o key).toList := by
  unfold optName strOption
  simp only [Option.bind_some]
  rcases o.get? key with _ | v
  · rfl
  · rcases v with _ | b | _ <;> try rfl
    cases b <;> rfl

theorem hasFilename_strOption (o : Dict (OptVal ℝ)) : hasFilename o = decide (strOption o "filename" ≠ "") := by
  unfold hasFilename strOption
  rcases o.get? "filename" with _ | v
  · rfl
  · rcases v with _ | b | _ <;> try rfl
    cases b <;> rfl

/-- Names of the files of a grid. -/
def Spec.gridNames (o : Option (Dict (OptVal ℝ))) (n : Nat) (p : Path) : List Path :=
  (sampledSteps (natOption (o.getD []) "write-stride" 0) 0 n).map (fun t => p ++ '_' :: Nat.toDigits 10 t) ++ [p]

theorem gridFiles_names {α : Type} (o : Dict (OptVal ℝ)) (n : Nat) (content : Nat → α) (final : α) :
    (gridFiles o n content final).map (fun x => x.1.toList) =
      (optName (some o) "filename").toList.flatMap (gridNames (some o) n) := by
  have e : filenameOf o = strOption o "filename" := rfl
  unfold gridFiles
  rw [hasFilename_strOption, optName_some, e]
  by_cases h : strOption o "filename" = ""
  · simp [h]
  · simp [h, gridNames, Nat.repr, Function.comp_def]

/-- The files with the names of which they are made. -/
def Spec.families (config : Input ℝ) (m n : Nat) : List (Path × List Path) :=
  (optName config.birthDeath "stats-filename").toList.map (fun p => (p, [p])) ++
    (optName config.trajectories "filename").toList.map (fun p => (p, (List.range m).map (walkerFile p))) ++
    (optName config.deltaF "filename").toList.map (fun p => (p, [p])) ++
    (optName config.particleDistribution "filename").toList.map (fun p => (p, [p])) ++
    (optName config.histogram "filename").toList.map (fun p => (p, gridNames config.histogram n p)) ++
    (optName config.fes "filename").toList.map (fun p => (p, gridNames config.fes n p))

theorem families_base (config : Input ℝ) (m n : Nat) : (families config m n).map Prod.fst = baseNames config := by
  simp [families, baseNames, Function.comp_def]

theorem sampledSteps_nodup (k a b : Nat) : (sampledSteps k a b).Nodup := List.nodup_range.filter _

theorem family_names (config : Input ℝ) (m n : Nat) (f : Path × List Path) (hf : f ∈ families config m n) :
    f.2.Nodup ∧ ∀ p ∈ f.2, ∃ t, isEnding t = true ∧ p = f.1 ++ t := by
  have single : ∀ p : Path, ([p] : List Path).Nodup ∧ ∀ q ∈ [p], ∃ t, isEnding t = true ∧ q = p ++ t :=
    fun p => ⟨List.nodup_singleton p, fun q hq => ⟨[], rfl, by rw [List.mem_singleton.1 hq, List.append_nil]⟩⟩
  have grid : ∀ (o : Option (Dict (OptVal ℝ))) (p : Path), (gridNames o n p).Nodup ∧
      ∀ q ∈ gridNames o n p, ∃ t, isEnding t = true ∧ q = p ++ t := by
    intro o p
    constructor
    · unfold gridNames
      rw [List.nodup_append]
      refine ⟨(sampledSteps_nodup _ _ _).map fun i j h => ?_, List.nodup_singleton p, ?_⟩
      · exact toDigits_inj (List.cons.inj (List.append_cancel_left h)).2
      · intro q hq q' hq' he
        obtain ⟨t, _, rfl⟩ := List.mem_map.1 hq
        rw [List.mem_singleton.1 hq'] at he
        have := congrArg List.length he
        simp at this
    · intro q hq
      rcases List.mem_append.1 hq with hq | hq
      · obtain ⟨t, _, rfl⟩ := List.mem_map.1 hq
        exact ⟨_, isEnding_digits _ (Or.inr rfl) t, rfl⟩
      · exact ⟨[], rfl, by rw [List.mem_singleton.1 hq, List.append_nil]⟩
  simp only [families, List.mem_append, List.mem_map] at hf
  rcases hf with ((((⟨p, _, rfl⟩ | ⟨p, _, rfl⟩) | ⟨p, _, rfl⟩) | ⟨p, _, rfl⟩) | ⟨p, _, rfl⟩) | ⟨p, _, rfl⟩
  · exact single p
  · refine ⟨List.nodup_range.map fun i j h => ?_, fun q hq => ?_⟩
    · exact toDigits_inj (List.cons.inj (List.append_cancel_left h)).2
    · obtain ⟨i, _, rfl⟩ := List.mem_map.1 hq
      exact ⟨_, isEnding_digits _ (Or.inl rfl) i, rfl⟩
  · exact single p
  · exact single p
  · exact grid _ p
  · exact grid _ p

variable {w : World R} {file : Option (List Section)} {a : AnySim R} {config : Input ℝ} {n : Nat} {s0 : Sim a.d R}

theorem histWrites_names (hr : FinishedRun w file a config n s0) : a.sim.histWrites.map (fun x => x.1.toList) =
    (optName config.histogram "filename").toList.flatMap (gridNames config.histogram n) := by
  obtain ⟨_, _, _, _, _, _, h2, h3, _⟩ := setupOptional_parts w config _ _ _ _ rfl rfl hr.optional
  cases e : config.histogram with
  | none =>
    rw [e] at h3
    rw [simulate_noHist w a.cfg h3.1 n s0 a.sim hr.sim hr.setup.histWrites]
    rfl
  | some oh =>
    rw [e] at h3
    obtain ⟨t, _, ht, _⟩ := h3
    cases e' : config.trajectories with
    | none =>
      rw [e'] at h2
      rw [h2.1] at ht
      cases ht
    | some o =>
      obtain ⟨_, _, _, _, _, _, hw, _⟩ := main_histogram_files hr o oh e' e
      rw [hw, gridFiles_names]

theorem fesWrites_names (hr : FinishedRun w file a config n s0) : a.sim.fesWrites.map (fun x => x.1.toList) =
    (optName config.fes "filename").toList.flatMap (gridNames config.fes n) := by
  obtain ⟨_, _, _, _, _, _, _, _, h4, _⟩ := setupOptional_parts w config _ _ _ _ rfl rfl hr.optional
  cases e : config.fes with
  | none =>
    rw [e] at h4
    rw [(simulate_noFes w a.cfg h4.1 n s0 a.sim hr.sim ⟨hr.setup.fesWrites, hr.setup.plots⟩).1]
    rfl
  | some o =>
    obtain ⟨_, _, hw⟩ := main_fes_files hr o e
    rw [hw, gridFiles_names]

theorem plots_names (hr : FinishedRun w file a config n s0) : hr.plotNames.Nodup ∧
    ∀ p ∈ hr.plotNames, ∃ u ∈ plotBase config, u <+: p := by
  obtain ⟨_, _, _, _, _, _, _, _, h4, _⟩ := setupOptional_parts w config _ _ _ _ rfl rfl hr.optional
  unfold FinishedRun.plotNames
  cases e : config.fes with
  | none =>
    rw [e] at h4
    rw [(simulate_noFes w a.cfg h4.1 n s0 a.sim hr.sim ⟨hr.setup.fesWrites, hr.setup.plots⟩).2]
    exact ⟨List.nodup_nil, fun p hp => absurd hp List.not_mem_nil⟩
  | some o =>
    obtain ⟨_, _, k1, k2⟩ := main_plots hr o e
    by_cases hq : strOption o "plot-filename" = ""
    · rw [k1 hq]
      exact ⟨List.nodup_nil, fun p hp => absurd hp List.not_mem_nil⟩
    · obtain ⟨ps, p, e1, e2, e3⟩ := k2 hq
      have hbase : plotBase config = some (rstripDots (strOption o "plot-filename").toList) := by
        rw [plotBase, e, optName_some, if_neg hq]
        rfl
      have hnames : a.sim.plots.map PlotOut.name =
          (sampledSteps (intOption o "plot-stride").natAbs 0 n).map (fun t => strOption o "plot-filename" ++ "_" ++ Nat.repr t) ++
            [strOption o "plot-filename"] := by
        rw [e1, List.map_append, List.map_cons, List.map_nil, e3.hasName]
        congr 1
        clear e1
        revert e2
        generalize sampledSteps (intOption o "plot-stride").natAbs 0 n = l
        intro e2
        induction e2 with
        | nil => rfl
        | cons h _ ih => rw [List.map_cons, List.map_cons, h.hasName, ih]
      have hfile : (a.sim.plots.map (fun x => figureFile x.name)).Nodup ∧
          ∀ p ∈ a.sim.plots.map (fun x => figureFile x.name), ∃ u ∈ plotBase config, u <+: p := by
        have hm : a.sim.plots.map (fun x => figureFile x.name) = (a.sim.plots.map PlotOut.name).map figureFile := by
          rw [List.map_map]; rfl
        rw [hm, hnames, hbase]
        obtain ⟨m1, m2⟩ := plotFiles_names (strOption o "plot-filename") _ (sampledSteps_nodup (intOption o "plot-stride").natAbs 0 n)
        exact ⟨m1, fun p hp => ⟨_, Option.mem_some_self _, m2 p hp⟩⟩
      have hsub : ((a.sim.plots.filter (fun x => !x.asked)).map (fun x => figureFile x.name)).Sublist
          (a.sim.plots.map (fun x => figureFile x.name)) := List.filter_sublist.map _
      exact ⟨hfile.1.sublist hsub, fun p hp => hfile.2 p (hsub.subset hp)⟩

/-- C151: with such names all files of the run have different names. -/
theorem clear_names (hr : FinishedRun w file a config n s0) (hc : ClearNames config) : hr.fileNames.Nodup := by
  have e : hr.fileNames = (families config s0.particles.length n).flatMap Prod.snd ++ hr.plotNames := by
    unfold FinishedRun.fileNames FinishedRun.files
    rw [histWrites_names hr, fesWrites_names hr]
    simp [families, outFiles, FinishedRun.plotNames, List.flatMap_map, List.map_flatMap, Function.comp_def]
  rw [e, List.nodup_append, List.nodup_flatMap]
  refine ⟨⟨fun f hf => (family_names config _ n f hf).1, ?_⟩, (plots_names hr).1, ?_⟩
  · have h1 := hc.distinct
    rw [← families_base config s0.particles.length n, List.pairwise_map] at h1
    refine h1.imp_of_mem (fun {f g} hf hg hfg => ?_)
    intro x hx hx'
    obtain ⟨t, ht, e1⟩ := (family_names config _ n f hf).2 x hx
    obtain ⟨t', ht', e2⟩ := (family_names config _ n g hg).2 x hx'
    rcases clash_of_eq f.1 g.1 t t' (by rw [← e1, e2]) ht ht' with h | h
    · exact hfg.1 h
    · exact hfg.2 h
  · intro x hx y hy hxy
    obtain ⟨f, hf, hxf⟩ := List.mem_flatMap.1 hx
    obtain ⟨t, ht, e1⟩ := (family_names config _ n f hf).2 x hxf
    obtain ⟨u, hu, hpre⟩ := (plots_names hr).2 y hy
    obtain ⟨k1, k2⟩ := hc.plot u hu f.1 (by rw [← families_base config s0.particles.length n]; exact List.mem_map_of_mem hf)
    obtain ⟨v, hv⟩ := hpre
    have h1 : f.1 ++ t = u ++ v := by rw [hv, ← e1, hxy]
    rcases List.append_eq_append_iff.1 h1 with ⟨z, e1, e2⟩ | ⟨z, e1, e2⟩
    · exact k2 (by rw [e1]; exact clash_of_append _ _ (isEnding_prefix z v (by rw [← e2]; exact ht)))
    · exact k1 (by rw [e1]; exact List.prefix_append _ _)

end

end Bdld
